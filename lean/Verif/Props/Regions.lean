import Verif.Model.Regions
import Verif.Props.Graph
import Verif.Props.Cover
import Mathlib.Data.Finset.Card
import Mathlib.Logic.Relation

/-! # Properties C40, C41 and C56: region colouring, region merging and cell-to-face lists -/

namespace VoroCrust

/-! ## C40 -/

/-- A graph over the seeds `0, …, n - 1`: every list can be read, holds seeds only, and connections go both ways. -/
structure SeedGraph (g : Graph) (n : Nat) : Prop where
  defined : ∀ i, i < n → graphNeighbors g i ≠ none
  inRange : ∀ i j, i < n → j ∈ storedNeighbors g i → j < n
  symm : ∀ i j, i < n → j ∈ storedNeighbors g i → i ∈ storedNeighbors g j

/-- A chain of connections leads from `i` to `j`. -/
def Joined (g : Graph) : Nat → Nat → Prop := Relation.ReflTransGen fun i j => j ∈ storedNeighbors g i

theorem SeedGraph.joined_lt {g : Graph} {n : Nat} (h : SeedGraph g n) {i j : Nat} (hi : i < n) (hij : Joined g i j) : j < n := by
  induction hij with
  | refl => exact hi
  | tail _ hab ih => exact h.inRange _ _ ih hab

theorem SeedGraph.joined_symm {g : Graph} {n : Nat} (h : SeedGraph g n) {i j : Nat} (hi : i < n) (hij : Joined g i j) : Joined g j i := by
  induction hij with
  | refl => exact .refl
  | tail hia hab ih => exact Relation.ReflTransGen.head (h.symm _ _ (h.joined_lt hi hia) hab) ih

/-- The colours `c'` extend `c` by region `id`. -/
def Extends (n id : Nat) (c c' : Nat → Nat) : Prop := ∀ k, c' k = c k ∨ (c k = 0 ∧ c' k = id ∧ k < n)

theorem Extends.refl (n id : Nat) (c : Nat → Nat) : Extends n id c c := fun _ => Or.inl rfl

theorem Extends.trans {n id : Nat} {a b c : Nat → Nat} (h : Extends n id a b) (k : Extends n id b c) : Extends n id a c := by
  intro i
  rcases h i with h | h <;> rcases k i with k | k
  · exact Or.inl (k.trans h)
  · exact Or.inr ⟨h ▸ k.1, k.2⟩
  · exact Or.inr ⟨h.1, k.trans h.2.1, h.2.2⟩
  · exact Or.inr ⟨h.1, k.2⟩

theorem Extends.ne {n id : Nat} (hid : id ≠ 0) {a b : Nat → Nat} (h : Extends n id a b) {k : Nat} (hk : a k ≠ 0) : b k ≠ 0 := by
  rcases h k with h | h
  · rwa [h]
  · exact absurd h.1 hk

theorem floodNbrs_spec {n id : Nat} (hid : id ≠ 0) (S : Nat → Prop) (l : List Nat) (hl : ∀ k ∈ l, k < n ∧ S k) (c : Nat → Nat) (d : Bool)
    (hc : ∀ k, c k = id → S k) :
    ∃ c' d', floodNbrs n id l (c, d) = some (c', d') ∧ Extends n id c c' ∧ (∀ k, c' k = id → S k) ∧
      (d' = true → c' = c ∧ d = true ∧ ∀ k ∈ l, c k ≠ 0) ∧ (d' = false → d = false ∨ ∃ k, k < n ∧ c k = 0 ∧ c' k ≠ 0) := by
  induction l generalizing c d with
  | nil =>
    refine ⟨c, d, rfl, .refl n id c, hc, fun h => ⟨rfl, h, by simp⟩, fun h => Or.inl h⟩
  | cons k ks ih =>
    have hk := hl k (by simp)
    by_cases h0 : c k = 0
    · obtain ⟨c', d', e, h1, h2, h3, h4⟩ := ih (fun q hq => hl q (by simp [hq])) (upd c k id) false (by
        intro q hq
        by_cases hqk : q = k
        · rw [hqk]; exact hk.2
        · exact hc q (by simpa [upd, hqk] using hq))
      have hE : Extends n id c (upd c k id) := by
        intro q
        by_cases hqk : q = k
        · subst hqk; exact Or.inr ⟨h0, by simp [upd], hk.1⟩
        · exact Or.inl (by simp [upd, hqk])
      refine ⟨c', d', by simp [floodNbrs, hk.1, h0, e], hE.trans h1, h2, fun h => ?_, fun _ => Or.inr ⟨k, hk.1, h0, ?_⟩⟩
      · exact absurd (h3 h).2.1 (by simp)
      · exact h1.ne hid (by simp [upd, hid])
    · obtain ⟨c', d', e, h1, h2, h3, h4⟩ := ih (fun q hq => hl q (by simp [hq])) c d hc
      refine ⟨c', d', by simp [floodNbrs, hk.1, h0, e], h1, h2, fun h => ⟨(h3 h).1, (h3 h).2.1, ?_⟩, h4⟩
      intro q hq
      rcases List.mem_cons.1 hq with rfl | hq
      · exact h0
      · exact (h3 h).2.2 q hq

theorem floodSeed_spec {g : Graph} {n id : Nat} (hg : SeedGraph g n) (hid : id ≠ 0) (S : Nat → Prop)
    (hS : ∀ i, S i → ∀ k ∈ storedNeighbors g i, S k) {i : Nat} (hi : i < n) (c : Nat → Nat) (d : Bool) (hc : ∀ k, c k = id → S k) :
    ∃ c' d', floodSeed g n id i (c, d) = some (c', d') ∧ Extends n id c c' ∧ (∀ k, c' k = id → S k) ∧
      (d' = true → c' = c ∧ d = true ∧ (c i = id → ∀ k ∈ storedNeighbors g i, c k ≠ 0)) ∧
      (d' = false → d = false ∨ ∃ k, k < n ∧ c k = 0 ∧ c' k ≠ 0) := by
  unfold floodSeed
  by_cases h : c i = id
  · have hsn : storedNeighbors g i = ((graphNeighbors g i).getD none).getD [] := rfl
    cases hq : graphNeighbors g i with
    | none => exact absurd hq (hg.defined i hi)
    | some o =>
      rw [hq] at hsn
      cases o with
      | none =>
        refine ⟨c, d, by simp [h], .refl n id c, hc, fun h => ⟨rfl, h, ?_⟩, fun h => Or.inl h⟩
        intro _ k hk
        rw [hsn] at hk; simp at hk
      | some l =>
        have hl : storedNeighbors g i = l := hsn
        obtain ⟨c', d', e, h1, h2, h3, h4⟩ := floodNbrs_spec hid S l
          (fun k hk => ⟨hg.inRange i k hi (by rw [hl]; exact hk), hS i (hc i h) k (by rw [hl]; exact hk)⟩) c d hc
        refine ⟨c', d', by simp [h, e], h1, h2, fun hd => ⟨(h3 hd).1, (h3 hd).2.1, fun _ k hk => (h3 hd).2.2 k (by rw [← hl]; exact hk)⟩, h4⟩
  · exact ⟨c, d, by simp [h], .refl n id c, hc, fun hd => ⟨rfl, hd, fun h' => absurd h' h⟩, fun h => Or.inl h⟩

theorem floodSweep_spec {g : Graph} {n id : Nat} (hg : SeedGraph g n) (hid : id ≠ 0) (S : Nat → Prop)
    (hS : ∀ i, S i → ∀ k ∈ storedNeighbors g i, S k) (m i : Nat) (him : i + m ≤ n) (c : Nat → Nat) (d : Bool) (hc : ∀ k, c k = id → S k) :
    ∃ c' d', floodSweep g n id m i (c, d) = some (c', d') ∧ Extends n id c c' ∧ (∀ k, c' k = id → S k) ∧
      (d' = true → c' = c ∧ d = true ∧ ∀ j, i ≤ j → j < i + m → c j = id → ∀ k ∈ storedNeighbors g j, c k ≠ 0) ∧
      (d' = false → d = false ∨ ∃ k, k < n ∧ c k = 0 ∧ c' k ≠ 0) := by
  induction m generalizing i c d with
  | zero => exact ⟨c, d, rfl, .refl n id c, hc, fun h => ⟨rfl, h, fun j h1 h2 => by omega⟩, fun h => Or.inl h⟩
  | succ m ih =>
    obtain ⟨c1, d1, e1, x1, y1, z1, w1⟩ := floodSeed_spec hg hid S hS (show i < n by omega) c d hc
    obtain ⟨c2, d2, e2, x2, y2, z2, w2⟩ := ih (i + 1) (by omega) c1 d1 y1
    refine ⟨c2, d2, by simp only [floodSweep, e1, e2], x1.trans x2, y2, fun h => ?_, fun h => ?_⟩
    · obtain ⟨r1, r2, r3⟩ := z2 h
      obtain ⟨s1, s2, s3⟩ := z1 r2
      subst r1; subst s1
      refine ⟨rfl, s2, fun j h1 h2 => ?_⟩
      rcases Nat.eq_or_lt_of_le h1 with rfl | h1
      · exact s3
      · exact r3 j h1 (by omega)
    · rcases w2 h with h | ⟨k, hk, h0, h1⟩
      · rcases w1 h with h | ⟨k, hk, h0, h1⟩
        · exact Or.inl h
        · exact Or.inr ⟨k, hk, h0, x2.ne hid h1⟩
      · refine Or.inr ⟨k, hk, ?_, h1⟩
        by_contra hne
        exact x1.ne hid hne h0

/-- Number of seeds without a colour. -/
def uncoloured (c : Nat → Nat) (n : Nat) : Nat := ((Finset.range n).filter fun k => c k = 0).card

theorem uncoloured_lt {n id : Nat} {c c' : Nat → Nat} (hid : id ≠ 0) (h : Extends n id c c') (hk : ∃ k, k < n ∧ c k = 0 ∧ c' k ≠ 0) :
    uncoloured c' n < uncoloured c n := by
  obtain ⟨k, hk, h0, h1⟩ := hk
  apply Finset.card_lt_card
  refine ⟨fun q hq => ?_, fun hsub => ?_⟩
  · simp only [Finset.mem_filter, Finset.mem_range] at hq ⊢
    refine ⟨hq.1, ?_⟩
    by_contra hne
    exact h.ne hid hne hq.2
  · have := hsub (show k ∈ _ by simp [hk, h0])
    simp only [Finset.mem_filter] at this
    exact h1 this.2

theorem uncoloured_le (c : Nat → Nat) (n : Nat) : uncoloured c n ≤ n := by
  calc uncoloured c n ≤ (Finset.range n).card := Finset.card_filter_le _ _
    _ = n := Finset.card_range n

theorem floodRegion_spec {g : Graph} {n id : Nat} (hg : SeedGraph g n) (hid : id ≠ 0) (S : Nat → Prop)
    (hS : ∀ i, S i → ∀ k ∈ storedNeighbors g i, S k) (fuel : Nat) (c : Nat → Nat) (hc : ∀ k, c k = id → S k) (hf : uncoloured c n < fuel) :
    ∃ c', floodRegion g n id fuel c = some c' ∧ Extends n id c c' ∧ (∀ k, c' k = id → S k) ∧
      ∀ j, j < n → c' j = id → ∀ k ∈ storedNeighbors g j, c' k ≠ 0 := by
  induction fuel generalizing c with
  | zero => omega
  | succ fuel ih =>
    obtain ⟨c1, d1, e1, x1, y1, z1, w1⟩ := floodSweep_spec hg hid S hS n 0 (by omega) c true hc
    cases d1 with
    | true =>
      obtain ⟨rfl, -, h⟩ := z1 rfl
      exact ⟨c1, by simp only [floodRegion, e1], x1, y1, fun j hj => h j (by omega) (by omega)⟩
    | false =>
      have hk := (w1 rfl).resolve_left (by simp)
      obtain ⟨c2, e2, x2, y2, z2⟩ := ih c1 y1 (by have := uncoloured_lt hid x1 hk; omega)
      exact ⟨c2, by simp only [floodRegion, e1, e2], x1.trans x2, y2, z2⟩

theorem firstUncoloured_spec (c : Nat → Nat) (m i : Nat) :
    (firstUncoloured c m i = none ∧ ∀ j, i ≤ j → j < i + m → c j ≠ 0) ∨
      ∃ k, firstUncoloured c m i = some k ∧ i ≤ k ∧ k < i + m ∧ c k = 0 := by
  induction m generalizing i with
  | zero => exact Or.inl ⟨rfl, fun j h1 h2 => by omega⟩
  | succ m ih =>
    by_cases h : c i = 0
    · exact Or.inr ⟨i, by simp [firstUncoloured, h], by omega, by omega, h⟩
    · rcases ih (i + 1) with ⟨e, h'⟩ | ⟨k, e, h1, h2, h3⟩
      · refine Or.inl ⟨by simp [firstUncoloured, h, e], fun j h1 h2 => ?_⟩
        rcases Nat.eq_or_lt_of_le h1 with rfl | h1
        · exact h
        · exact h' j h1 (by omega)
      · exact Or.inr ⟨k, by simp [firstUncoloured, h, e], by omega, by omega, h3⟩

/-- Colours after `id` regions. -/
structure Coloured (g : Graph) (n id : Nat) (c : Nat → Nat) : Prop where
  bound : ∀ i, i < n → c i ≤ id
  closed : ∀ i, i < n → c i ≠ 0 → ∀ k ∈ storedNeighbors g i, c k = c i
  joined : ∀ i j, i < n → j < n → c i ≠ 0 → c i = c j → Joined g i j
  onto : ∀ r, 1 ≤ r → r ≤ id → ∃ i, i < n ∧ c i = r
  outside : ∀ i, n ≤ i → c i = 0

theorem colour_step {g : Graph} {n id : Nat} (hg : SeedGraph g n) {c : Nat → Nat} (h : Coloured g n id c) {i : Nat} (hi : i < n) (h0 : c i = 0) :
    ∃ c', floodRegion g n (id + 1) (n + 1) (upd c i (id + 1)) = some c' ∧ Coloured g n (id + 1) c' ∧ uncoloured c' n < uncoloured c n := by
  have hb : ∀ k, c k ≤ id := fun k => by
    rcases Nat.lt_or_ge k n with hk | hk
    · exact h.bound k hk
    · rw [h.outside k hk]; omega
  obtain ⟨c', e, x, y, z⟩ := floodRegion_spec hg (id := id + 1) (by omega) (fun k => Joined g i k)
    (fun a ha k hk => Relation.ReflTransGen.tail ha hk) (n + 1) (upd c i (id + 1)) (by
      intro k hk
      by_cases hki : k = i
      · rw [hki]; exact .refl
      · have := hb k
        simp [upd, hki] at hk; omega) (by have := uncoloured_le (upd c i (id + 1)) n; omega)
  have hE : Extends n (id + 1) c (upd c i (id + 1)) := by
    intro q
    by_cases hqi : q = i
    · subst hqi; exact Or.inr ⟨h0, by simp [upd], hi⟩
    · exact Or.inl (by simp [upd, hqi])
  have hx := hE.trans x
  have hi' : c' i = id + 1 := by
    rcases x i with h | h
    · simpa [upd] using h
    · exact h.2.1
  -- the neighbours of an old seed are old
  have old : ∀ a, a < n → c a ≠ 0 → ∀ k ∈ storedNeighbors g a, c k ≠ 0 := fun a ha hne k hk => by rw [h.closed a ha hne k hk]; exact hne
  refine ⟨c', e, ⟨?_, ?_, ?_, ?_, ?_⟩, uncoloured_lt (by omega : id + 1 ≠ 0) hx ⟨i, hi, h0, by omega⟩⟩
  · intro a ha
    rcases hx a with h' | h'
    · rw [h']; have := hb a; omega
    · omega
  · intro a ha hne k hk
    rcases hx a with h' | h'
    · rw [h'] at hne ⊢
      have h1 := h.closed a ha hne k hk
      rcases hx k with h2 | h2
      · rw [h2, h1]
      · exact absurd (h1.symm.trans h2.1) hne
    · have hk' := z a ha h'.2.1 k hk
      rw [h'.2.1]
      rcases hx k with h2 | h2
      · exfalso
        rw [h2] at hk'
        have hkn := hg.inRange a k ha hk
        have := h.closed k hkn hk' a (hg.symm a k ha hk)
        exact hk' (this.symm.trans h'.1)
      · exact h2.2.1
  · intro a b ha hb' hne hab
    rcases hx a with h1 | h1 <;> rcases hx b with h2 | h2
    · exact h.joined a b ha hb' (by rwa [← h1]) (by rw [← h1, ← h2]; exact hab)
    · have := hb a; omega
    · have := hb b; omega
    · exact (hg.joined_symm hi (y a h1.2.1)).trans (y b h2.2.1)
  · intro r h1 h2
    rcases Nat.lt_or_ge id r with hr | hr
    · exact ⟨i, hi, by omega⟩
    · obtain ⟨a, ha, har⟩ := h.onto r h1 hr
      refine ⟨a, ha, ?_⟩
      rcases hx a with h' | h'
      · rw [h', har]
      · omega
  · intro a ha
    rcases hx a with h' | h'
    · rw [h']; exact h.outside a ha
    · omega

theorem colourLoop_spec {g : Graph} {n : Nat} (hg : SeedGraph g n) (fuel id : Nat) (c : Nat → Nat) (h : Coloured g n id c)
    (hf : uncoloured c n < fuel) :
    ∃ c' id', colourLoop g n fuel c id = some (c', id') ∧ Coloured g n id' c' ∧ ∀ i, i < n → c' i ≠ 0 := by
  induction fuel generalizing id c with
  | zero => omega
  | succ fuel ih =>
    rcases firstUncoloured_spec c n 0 with ⟨e, hall⟩ | ⟨k, e, h1, h2, h3⟩
    · exact ⟨c, id, by simp only [colourLoop, e], h, fun i hi => hall i (by omega) (by omega)⟩
    · obtain ⟨c1, e1, hc1, hlt⟩ := colour_step hg h (show k < n by omega) h3
      obtain ⟨c2, id2, e2, r⟩ := ih (id + 1) c1 hc1 (by omega)
      exact ⟨c2, id2, by simp only [colourLoop, e, e1, e2], r⟩

theorem ghostToZero_eq (gh n : Nat) (c : Nat → Nat) (i : Nat) : ghostToZero gh n c i = if i < n ∧ c i = gh then 0 else c i := by
  induction n with
  | zero => simp [ghostToZero]
  | succ n ih =>
    have hn : ∀ m, ghostToZero gh m c m = c m := by
      intro m
      induction m with
      | zero => rfl
      | succ m _ =>
        have : ∀ q, q ≤ m → ghostToZero gh q c (m + 1) = c (m + 1) := by
          intro q hq
          induction q with
          | zero => rfl
          | succ q ihq =>
            simp only [ghostToZero]
            split
            · rw [upd, if_neg (by omega)]; exact ihq (by omega)
            · exact ihq (by omega)
        simp only [ghostToZero]
        split
        · rw [upd, if_neg (by omega)]; exact this m (le_refl _)
        · exact this m (le_refl _)
    simp only [ghostToZero, hn]
    by_cases hin : i = n
    · subst hin
      by_cases hc : c i = gh
      · simp [hc, upd]
      · simp [hc, hn]
    · by_cases hc : c n = gh
      · rw [if_pos hc, upd, if_neg hin, ih]
        have : (i < n + 1 ↔ i < n) := by omega
        simp [this]
      · rw [if_neg hc, ih]
        have : (i < n + 1 ↔ i < n) := by omega
        simp [this]

theorem closeGap_eq (gh n : Nat) (c : Nat → Nat) (i : Nat) : closeGap gh n c i = if i < n ∧ gh < c i then c i - 1 else c i := by
  have hn : ∀ m i, m ≤ i → closeGap gh m c i = c i := by
    intro m
    induction m with
    | zero => intro i _; rfl
    | succ m ih =>
      intro i hi
      simp only [closeGap]
      split
      · rw [upd, if_neg (by omega)]; exact ih i (by omega)
      · exact ih i (by omega)
  induction n with
  | zero => simp [closeGap]
  | succ n ih =>
    simp only [closeGap, hn n n (le_refl _)]
    by_cases hin : i = n
    · subst hin
      by_cases hc : gh < c i
      · simp [hc, upd]
      · simp [hc, hn i i (le_refl _)]
    · have : (i < n + 1 ↔ i < n) := by omega
      by_cases hc : gh < c n
      · rw [if_pos hc, upd, if_neg hin, ih]; simp [this]
      · rw [if_neg hc, ih]; simp [this]

/-- **C40.** For every seed graph of any size and any seed `e` taken as exterior the colouring terminates without out-of-range access.  Two seeds get the
same region exactly when a chain of connections joins them, seed `e` (hence exactly its component) gets region 0, and the regions are exactly
`0, …, k` with `k` the reported number of subregions. -/
theorem C40_regions_are_components (g : Graph) (n : Nat) (hg : SeedGraph g n) (e : Nat) (he : e < n) :
    ∃ c k, colourSeeds g n e = some (c, k) ∧ (∀ i j, i < n → j < n → (c i = c j ↔ Joined g i j)) ∧ c e = 0 ∧
      (∀ i, i < n → c i ≤ k) ∧ ∀ r, r ≤ k → ∃ i, i < n ∧ c i = r := by
  have hstart : Coloured g n 0 fun _ => 0 :=
    ⟨fun _ _ => Nat.le_refl _, fun _ _ h => absurd rfl h, fun _ _ _ _ h => absurd rfl h, fun r h1 h2 => by omega, fun _ _ => rfl⟩
  obtain ⟨c, id, e1, hc, hpos⟩ := colourLoop_spec hg (n + 1) 0 (fun _ => 0) hstart (by have := uncoloured_le (fun _ => 0) n; omega)
  have hval : ∀ i, i < n → closeGap (c e) n (ghostToZero (c e) n c) i = if c i = c e then 0 else if c e < c i then c i - 1 else c i := by
    intro i hi
    rw [closeGap_eq, ghostToZero_eq]
    by_cases h1 : c i = c e
    · simp [h1, hi]
    · simp [h1, hi]
  have hconn : ∀ i j, i < n → j < n → (c i = c j ↔ Joined g i j) := by
    intro i j hi hj
    refine ⟨hc.joined i j hi hj (hpos i hi), fun h => ?_⟩
    clear hj
    induction h with
    | refl => rfl
    | tail hia hab ih => exact ih.trans (hc.closed _ (hg.joined_lt hi hia) (hpos _ (hg.joined_lt hi hia)) _ hab).symm
  refine ⟨closeGap (c e) n (ghostToZero (c e) n c), id - 1, by simp only [colourSeeds, e1, if_pos he], ?_, ?_, ?_, ?_⟩
  · intro i j hi hj
    rw [← hconn i j hi hj, hval i hi, hval j hj]
    have := hpos i hi; have := hpos j hj; have := hpos e he
    split_ifs <;> omega
  · rw [hval e he]; simp
  · intro i hi
    rw [hval i hi]
    have := hc.bound i hi; have := hc.bound e he; have := hpos e he; have := hpos i hi
    split_ifs <;> omega
  · intro r hr
    have hge := hpos e he
    have hgb := hc.bound e he
    rcases Nat.eq_zero_or_pos r with rfl | hr0
    · exact ⟨e, he, by rw [hval e he]; simp⟩
    · rcases Nat.lt_or_ge r (c e) with hlt | hge'
      · obtain ⟨i, hi, hir⟩ := hc.onto r hr0 (by omega)
        exact ⟨i, hi, by rw [hval i hi]; split_ifs <;> omega⟩
      · obtain ⟨i, hi, hir⟩ := hc.onto (r + 1) (by omega) (by omega)
        exact ⟨i, hi, by rw [hval i hi]; split_ifs <;> omega⟩

theorem boxRange_spec (v : Nat → ℝ) (m : Nat) : ∀ i, i ≤ m → (boxRange v m).1 ≤ v i ∧ v i ≤ (boxRange v m).2 := by
  induction m with
  | zero => intro i hi; rw [Nat.le_zero.1 hi]; exact ⟨le_rfl, le_rfl⟩
  | succ m ih =>
    intro i hi
    simp only [boxRange]
    rcases Nat.eq_or_lt_of_le hi with rfl | hi
    · exact ⟨min_le_right _ _, le_max_right _ _⟩
    · have := ih i (by omega)
      exact ⟨(min_le_left _ _).trans this.1, this.2.trans (le_max_left _ _)⟩

/-- **C40, exterior.** On every tree of seeds and every seed graph, region 0 is the component of a seed nearest to a point beyond the bounding box of all
seeds. -/
theorem C40_exterior_is_zero (P : PointStore ℝ) (ln : Links) (h : RealTree P ln) (hd : P.dim = 3) (g : Graph) (hg : SeedGraph g P.num) :
    ∃ c k e, colourSurfaceSeeds P ln g = some (c, k) ∧ (∀ i j, i < P.num → j < P.num → (c i = c j ↔ Joined g i j)) ∧
      (∀ i, i < P.num → c i ≤ k) ∧ (∀ r, r ≤ k → ∃ i, i < P.num ∧ c i = r) ∧
      e < P.num ∧ (∀ i, i < P.num → (c i = 0 ↔ Joined g e i)) ∧
      ∃ x : Nat → ℝ, (∀ i d, i < P.num → P.pts i d ≤ x d) ∧ ∀ q, q < P.num → euclid 3 x (P.pts e) ≤ euclid 3 x (P.pts q) := by
  obtain ⟨e, b, eq, h1 | h1⟩ := C06_closest_is_exhaustive P ln h (fun _ => true) (farPoint P) false ⊤ le_top
  · obtain ⟨he, -, hb, -, hmin⟩ := h1
    obtain ⟨c, k, e1, h1, h2, h3, h4⟩ := C40_regions_are_components g P.num hg e he
    refine ⟨c, k, e, ?_, h1, h3, h4, he, fun i hi => ?_, farPoint P, ?_, fun q hq => ?_⟩
    · unfold colourSurfaceSeeds closestSphere
      rw [eq, hb]
      show (match (if e < P.num then some (e, euclid P.dim (farPoint P) (P.pts e)) else none) with
        | none => none
        | some (iclosest, _) => colourSeeds g P.num iclosest) = _
      rw [if_pos he]; exact e1
    · rw [← h1 e i he hi, h2]; exact eq_comm
    · intro i d hi
      have := boxRange_spec (fun i => P.pts i d) (P.num - 1) i (by omega)
      have := this.1.trans this.2
      have := (boxRange_spec (fun i => P.pts i d) (P.num - 1) i (by omega)).2
      simp only [farPoint]
      linarith
    · have := hmin q hq rfl
      rwa [hd] at this
  · exact absurd (h1.2.2 0 h.num_pos rfl) (by simp)

theorem runGraph_append (a b : List GraphOp) (s : Nat × Nat × Graph) : runGraph (a ++ b) s = (runGraph a s).bind (runGraph b) := by
  induction a generalizing s with
  | nil => rfl
  | cons op ops ih =>
    obtain ⟨n, c, g⟩ := s
    cases op with
    | grow n' c' => simp only [List.cons_append, runGraph, ih]
    | connect i j =>
      simp only [List.cons_append, runGraph]
      cases graphConnectNodes n c g i j with
      | none => rfl
      | some g' => exact ih _
    | connectOneWay i j =>
      simp only [List.cons_append, runGraph]
      cases graphConnect n c g i j with
      | none => rfl
      | some g' => exact ih _
    | reset => simp only [List.cons_append, runGraph, ih]

theorem graphConnect_cap {n c i j s : Nat} {g g' : Graph} (hi : i < n) (h : graphConnect n c g i j = some (s, g')) :
    g'.rows ≠ none ∧ c ≤ g'.cap := by
  have hE : (g.enlarge c).rows ≠ none ∧ c ≤ (g.enlarge c).cap := by
    unfold Graph.enlarge
    cases hr : g.rows with
    | none => simp
    | some rows => simp only; split <;> simp_all
  unfold graphConnect at h
  rw [if_neg (by omega)] at h
  simp only at h
  cases hr : (g.enlarge c).rows with
  | none => exact absurd hr hE.1
  | some rows =>
    simp only [hr] at h
    split at h
    · split at h
      · simp at h
      · simp only [Option.some.injEq, Prod.mk.injEq] at h
        rw [← h.2]; exact ⟨by simp, hE.2⟩
      · split at h
        · simp at h
        · split at h
          · simp only [Option.some.injEq, Prod.mk.injEq] at h
            rw [← h.2]; exact ⟨by simp, hE.2⟩
          · simp at h
    · simp at h

/-- What a run leaves of the point count. -/
theorem runGraph_points (ops : List GraphOp) (n c : Nat) (g : Graph) (n' c' : Nat) (g' : Graph) (h : runGraph ops (n, c, g) = some (n', c', g'))
    (hg : Growing ops n c) (hnc : n ≤ c) :
    n ≤ n' ∧ n' ≤ c' ∧ (∀ i j acc, (acc = true → i < n) → Requested i j ops n acc = true → i < n') := by
  induction ops generalizing n c g with
  | nil =>
    simp only [runGraph, Option.some.injEq, Prod.mk.injEq] at h
    obtain ⟨rfl, rfl, rfl⟩ := h
    exact ⟨le_refl _, hnc, fun i j acc h1 h2 => h1 h2⟩
  | cons op ops ih =>
    cases op with
    | grow n1 c1 =>
      obtain ⟨h1, h2, h3, h4⟩ := hg
      obtain ⟨a, b, r⟩ := ih n1 c1 g h h4 h3
      exact ⟨by omega, b, fun i j acc h5 h6 => r i j acc (fun h => by have := h5 h; omega) h6⟩
    | connect x y =>
      simp only [runGraph] at h
      cases hc : graphConnectNodes n c g x y with
      | none => simp [hc] at h
      | some g1 =>
        simp only [hc] at h
        obtain ⟨a, b, r⟩ := ih n c g1 h hg hnc
        refine ⟨a, b, fun i j acc h5 h6 => r i j _ (fun h => ?_) h6⟩
        rcases Bool.or_eq_true_iff.1 h with h | h
        · exact h5 h
        · simpa using (Bool.and_eq_true_iff.1 h).2
    | connectOneWay x y =>
      simp only [runGraph] at h
      cases hc : graphConnect n c g x y with
      | none => simp [hc] at h
      | some g1 =>
        simp only [hc] at h
        obtain ⟨a, b, r⟩ := ih n c g1.2 h hg hnc
        refine ⟨a, b, fun i j acc h5 h6 => r i j _ (fun h => ?_) h6⟩
        rcases Bool.or_eq_true_iff.1 h with h | h
        · exact h5 h
        · simpa using (Bool.and_eq_true_iff.1 h).2
    | reset =>
      obtain ⟨a, b, r⟩ := ih n c _ h hg hnc
      refine ⟨a, b, fun i j acc h5 h6 => r i j _ (fun h => ?_) h6⟩
      split at h
      · exact h5 h
      · simp at h

theorem growing_append_left (a b : List GraphOp) (n c : Nat) (h : Growing (a ++ b) n c) : Growing a n c := by
  induction a generalizing n c with
  | nil => trivial
  | cons op ops ih =>
    cases op with
    | grow n' c' => exact ⟨h.1, h.2.1, h.2.2.1, ih _ _ h.2.2.2⟩
    | connect i j => exact ih _ _ h
    | connectOneWay i j => exact ih _ _ h
    | reset => exact ih _ _ h

theorem twoWay_last (ops : List GraphOp) (i j n c : Nat) (g : Graph) (n' c' : Nat) (g' : Graph) (ht : TwoWayValid (ops ++ [.connect i j]) n)
    (h : runGraph ops (n, c, g) = some (n', c', g')) : i < n' ∧ j < n' := by
  induction ops generalizing n c g with
  | nil =>
    simp only [runGraph, Option.some.injEq, Prod.mk.injEq] at h
    obtain ⟨rfl, rfl, rfl⟩ := h
    exact ⟨ht.1, ht.2.1⟩
  | cons op ops ih =>
    cases op with
    | grow n1 c1 => exact ih n1 c1 g ht h
    | connect x y =>
      simp only [runGraph] at h
      cases hc : graphConnectNodes n c g x y with
      | none => simp [hc] at h
      | some g1 => simp only [hc] at h; exact ih n c g1 ht.2.2 h
    | connectOneWay x y => exact absurd ht (by simp [TwoWayValid])
    | reset => exact ih n c _ ht h

/-- **C40, histories.** After any history of two-way connections between valid points that ends with a connection, the graph meets the requirements of
the colouring: its theorem applies to every graph the program builds. -/
theorem C40_graph_of_history (ops : List GraphOp) (i j : Nat) (hg : Growing (ops ++ [.connect i j]) 0 0) (ht : TwoWayValid (ops ++ [.connect i j]) 0) :
    ∃ n c g, runGraph (ops ++ [.connect i j]) (0, 0, { rows := none, cap := 0 }) = some (n, c, g) ∧ SeedGraph g n := by
  obtain ⟨n, c, g, e, hrel, -, -⟩ := C10_graph_history _ hg
  obtain ⟨-, hnc, hreq⟩ := runGraph_points _ 0 0 _ n c g e hg (Nat.le_refl _)
  have hsym : ∀ a b, b ∈ storedNeighbors g a → a ∈ storedNeighbors g b := fun a b h => by
    rw [hrel] at h ⊢; rwa [Requested_symm _ 0 b a false ht]
  refine ⟨n, c, g, e, ⟨?_, ?_, fun a b _ h => hsym a b h⟩⟩
  · rw [runGraph_append] at e
    cases e1 : runGraph ops (0, 0, { rows := none, cap := 0 }) with
    | none => rw [e1] at e; simp at e
    | some s =>
      obtain ⟨n1, c1, g1⟩ := s
      rw [e1] at e
      simp only [Option.bind_some, runGraph] at e
      obtain ⟨hi, hj⟩ := twoWay_last ops i j 0 0 _ n1 c1 g1 ht e1
      unfold graphConnectNodes at e
      cases e2 : graphConnect n1 c1 g1 i j with
      | none => simp [e2] at e
      | some s2 =>
        cases e3 : graphConnect n1 c1 s2.2 j i with
        | none => simp [e2, e3] at e
        | some s3 =>
          simp only [e2, e3, Option.map_some, Option.some.injEq, Prod.mk.injEq] at e
          obtain ⟨rfl, rfl, rfl⟩ := e
          obtain ⟨h1, h2⟩ := graphConnect_cap (s := s3.1) (g' := s3.2) hj e3
          intro k hk hno
          unfold graphNeighbors at hno
          cases hr : s3.2.rows with
          | none => exact h1 hr
          | some rows => simp only [hr] at hno; rw [if_pos (by omega)] at hno; simp at hno
  · intro a b _ h
    exact hreq b a false (by simp) ((hrel b a).1 (hsym a b h))

-- non-vacuity: six seeds, two components and an isolated one
example : ∃ n c g, runGraph ([.grow 6 100, .connect 0 3, .connect 4 1] ++ [.connect 3 5]) (0, 0, { rows := none, cap := 0 }) = some (n, c, g) ∧
    SeedGraph g n :=
  C40_graph_of_history _ 3 5 (by simp [Growing]) (by simp [TwoWayValid])

example : ((runGraph [.grow 6 100, .connect 0 3, .connect 4 1, .connect 3 5] (0, 0, { rows := none, cap := 0 })).bind fun s =>
    (colourSeeds s.2.2 s.1 4).map fun r => ((List.range 6).map r.1, r.2)) = some ([1, 0, 2, 1, 0, 1], 2) := by
  decide +kernel

/-- Seeds without a single connection: the table of lists was never allocated and the colouring reads through a null pointer. -/
theorem C40_no_connection_undefined (n e cap : Nat) (hn : 0 < n) : colourSeeds { rows := none, cap := cap } n e = none := by
  obtain ⟨m, rfl⟩ : ∃ m, n = m + 1 := ⟨n - 1, by omega⟩
  have h : floodSweep { rows := none, cap := cap } (m + 1) 1 (m + 1) 0 (upd (fun _ => 0) 0 1, true) = none := by
    simp [floodSweep, floodSeed, upd, graphNeighbors]
  simp [colourSeeds, colourLoop, firstUncoloured, floodRegion, h]

/-- Without seeds there is no region to report. -/
theorem C40_no_seeds_undefined (g : Graph) (e : Nat) : colourSeeds g 0 e = none := by
  simp [colourSeeds, colourLoop, firstUncoloured]

end VoroCrust
