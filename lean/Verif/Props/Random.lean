import Verif.Model.Random
import Verif.Props.Memory
import Verif.Props.KdQuery
import Mathlib.Algebra.Order.Floor.Semiring
import Mathlib.Tactic.Positivity

/-! # Properties C35, C36, C37 and C68: random numbers, samples and table look-up -/

namespace VoroCrust

/-! ## C36 -/

/-- What the generator needs of `double`: integer multiples of 2^-53 up to magnitude one are not changed by rounding. -/
def DyadicExact (ρ : ℝ → ℝ) : Prop := ∀ k : ℤ, |k| ≤ 2 ^ 53 → ρ ((k : ℝ) / 2 ^ 53) = (k : ℝ) / 2 ^ 53

/-- Reference generator on integers modulo 2^53: a lag-2 subtract-with-borrow sequence and a lag-1220 complementary
subtract-with-borrow sequence, subtracted. -/
structure IntRng where
  Q : Nat → ℤ
  indx : Nat
  c : ℤ
  zc : ℤ
  zx : ℤ
  zy : ℤ

/-- All entries of the second sequence replaced in place: `q[i] = q[i - 30] - q[i] + c - 1 mod 2^53`, the carry being 1 if
`q[i - 30] - q[i] + c > 0`. -/
def intRefill : Nat → Nat → (Nat → ℤ) → ℤ → (Nat → ℤ) × ℤ
  | 0, _, Q, c => (Q, c)
  | n + 1, i, Q, c =>
    let t := Q ((i + 1190) % 1220) - Q i + c
    intRefill n (i + 1) (fun k => if k = i then (t - 1) % 2 ^ 53 else Q k) (if t > 0 then 1 else 0)

/-- One draw of the reference generator, an integer modulo 2^53. -/
def intNext (s : IntRng) : ℤ × IntRng :=
  let t := s.zx - s.zy - s.zc
  let z := t % 2 ^ 53
  let b : ℤ := if t < 0 then 1 else 0
  if s.indx < 1220 then ((s.Q s.indx - z) % 2 ^ 53, { s with indx := s.indx + 1, zx := s.zy, zy := z, zc := b })
  else
    let r := intRefill 1220 0 s.Q s.c
    ((r.1 0 - z) % 2 ^ 53, { Q := r.1, indx := 1, c := r.2, zx := s.zy, zy := z, zc := b })

/-- `n` draws of the reference generator. -/
def intDraws : Nat → IntRng → List ℤ
  | 0, _ => []
  | n + 1, s => (intNext s).1 :: intDraws n (intNext s).2

/-- The state of the code is the state of the reference generator divided by 2^53. -/
structure RngRep (g : Rng) (s : IntRng) : Prop where
  Q : ∀ i, i < 1220 → g.Q i = (s.Q i : ℝ) / 2 ^ 53 ∧ 0 ≤ s.Q i ∧ s.Q i < 2 ^ 53
  indx : g.indx = s.indx
  c : g.c = (s.c : ℝ) / 2 ^ 53 ∧ (s.c = 0 ∨ s.c = 1)
  zc : g.zc = (s.zc : ℝ) / 2 ^ 53 ∧ (s.zc = 0 ∨ s.zc = 1)
  zx : g.zx = (s.zx : ℝ) / 2 ^ 53 ∧ 0 ≤ s.zx ∧ s.zx < 2 ^ 53
  zy : g.zy = (s.zy : ℝ) / 2 ^ 53 ∧ 0 ≤ s.zy ∧ s.zy < 2 ^ 53

variable {ρ : ℝ → ℝ}

theorem DyadicExact.unit (h : DyadicExact ρ) : rngUnit ρ = ((1 : ℤ) : ℝ) / 2 ^ 53 := by
  have := h 1 (by norm_num)
  unfold rngUnit
  rw [← this]; norm_num

theorem DyadicExact.sub (h : DyadicExact ρ) {a b : ℤ} (hab : |a - b| ≤ 2 ^ 53) : ρ ((a : ℝ) / 2 ^ 53 - (b : ℝ) / 2 ^ 53) = ((a - b : ℤ) : ℝ) / 2 ^ 53 := by
  rw [← h _ hab]; congr 1; push_cast; ring

theorem DyadicExact.add (h : DyadicExact ρ) {a b : ℤ} (hab : |a + b| ≤ 2 ^ 53) : ρ ((a : ℝ) / 2 ^ 53 + (b : ℝ) / 2 ^ 53) = ((a + b : ℤ) : ℝ) / 2 ^ 53 := by
  rw [← h _ hab]; congr 1; push_cast; ring

theorem one_dyadic : (1 : ℝ) = ((2 ^ 53 : ℤ) : ℝ) / 2 ^ 53 := by norm_num

theorem dyadic_lt {a b : ℤ} : (a : ℝ) / 2 ^ 53 < (b : ℝ) / 2 ^ 53 ↔ a < b := by
  rw [div_lt_div_iff_of_pos_right (by positivity)]; exact Int.cast_lt

theorem dyadic_pos {a : ℤ} : (a : ℝ) / 2 ^ 53 > 0 ↔ 0 < a := by
  have := dyadic_lt (a := 0) (b := a)
  simpa using this

theorem dyadic_neg {a : ℤ} : (a : ℝ) / 2 ^ 53 < 0 ↔ a < 0 := by
  have := dyadic_lt (a := a) (b := 0)
  simpa using this

theorem refillStep_rep (h : DyadicExact ρ) {qj qi c : ℤ} (hj : 0 ≤ qj ∧ qj < 2 ^ 53) (hi : 0 ≤ qi ∧ qi < 2 ^ 53) (hc : c = 0 ∨ c = 1) :
    refillStep ρ ((qj : ℝ) / 2 ^ 53) ((qi : ℝ) / 2 ^ 53) ((c : ℝ) / 2 ^ 53) =
      ((((qj - qi + c - 1) % 2 ^ 53 : ℤ) : ℝ) / 2 ^ 53, (((if qj - qi + c > 0 then 1 else 0 : ℤ)) : ℝ) / 2 ^ 53) := by
  unfold refillStep
  rw [h.sub (by rw [abs_le]; omega), h.add (by rw [abs_le]; omega), h.unit, h.sub (by rw [abs_le]; omega)]
  by_cases ht : 0 < qj - qi + c
  · rw [if_pos (dyadic_pos.2 ht), if_pos ht, Int.emod_eq_of_lt (by omega) (by omega)]
  · rw [if_neg (fun hc => ht (dyadic_pos.1 hc)), if_neg ht]
    conv_lhs => rw [one_dyadic]
    rw [h.add (by rw [abs_le]; omega)]
    have : (qj - qi + c - 1) % 2 ^ 53 = qj - qi + c - 1 + 2 ^ 53 := by omega
    rw [this]; simp

theorem refill_rep (h : DyadicExact ρ) (n i : Nat) (hn : i + n = 1220) (Q : Nat → ℝ) (P : Nat → ℤ) (cr : ℝ) (c : ℤ)
    (hQ : ∀ k, k < 1220 → Q k = (P k : ℝ) / 2 ^ 53 ∧ 0 ≤ P k ∧ P k < 2 ^ 53) (hcr : cr = (c : ℝ) / 2 ^ 53) (hc : c = 0 ∨ c = 1) :
    ∃ Q' c', refill ρ n i Q cr = some (Q', c') ∧
      (∀ k, k < 1220 → Q' k = ((intRefill n i P c).1 k : ℝ) / 2 ^ 53 ∧ 0 ≤ (intRefill n i P c).1 k ∧ (intRefill n i P c).1 k < 2 ^ 53) ∧
      c' = ((intRefill n i P c).2 : ℝ) / 2 ^ 53 ∧ ((intRefill n i P c).2 = 0 ∨ (intRefill n i P c).2 = 1) := by
  induction n generalizing i Q P cr c with
  | zero => exact ⟨Q, cr, rfl, hQ, hcr, hc⟩
  | succ n ih =>
    have hj : (if i < 30 then i + 1190 else i - 30) = (i + 1190) % 1220 := by split <;> omega
    have hjlt : (i + 1190) % 1220 < 1220 := Nat.mod_lt _ (by norm_num)
    simp only [refill, intRefill]
    rw [hj, if_pos ⟨hjlt, by omega⟩]
    have e := refillStep_rep h (hQ _ hjlt).2 (hQ i (by omega)).2 hc
    rw [← (hQ _ hjlt).1, ← (hQ i (by omega)).1, ← hcr] at e
    rw [e]
    refine ih (i + 1) (by omega) _ _ _ _ ?_ rfl ?_
    · intro k hk
      unfold upd
      by_cases hki : k = i
      · rw [if_pos hki, if_pos hki]
        exact ⟨rfl, Int.emod_nonneg _ (by norm_num), Int.emod_lt_of_pos _ (by norm_num)⟩
      · rw [if_neg hki, if_neg hki]; exact hQ k hk
    · split <;> simp

theorem borrowStep_rep (h : DyadicExact ρ) {zx zy zc : ℤ} (hx : 0 ≤ zx ∧ zx < 2 ^ 53) (hy : 0 ≤ zy ∧ zy < 2 ^ 53) (hc : zc = 0 ∨ zc = 1) :
    borrowStep ρ ((zx : ℝ) / 2 ^ 53) ((zy : ℝ) / 2 ^ 53) ((zc : ℝ) / 2 ^ 53) =
      ((((zx - zy - zc) % 2 ^ 53 : ℤ) : ℝ) / 2 ^ 53, (((if zx - zy - zc < 0 then 1 else 0 : ℤ)) : ℝ) / 2 ^ 53) := by
  unfold borrowStep
  rw [h.sub (by rw [abs_le]; omega), h.sub (by rw [abs_le]; omega), h.unit]
  by_cases ht : zx - zy - zc < 0
  · rw [if_pos (dyadic_neg.2 ht), if_pos ht]
    conv_lhs => rw [one_dyadic]
    rw [h.add (by rw [abs_le]; omega)]
    have : (zx - zy - zc) % 2 ^ 53 = zx - zy - zc + 2 ^ 53 := by omega
    rw [this]
  · rw [if_neg (fun hc => ht (dyadic_neg.1 hc)), if_neg ht, Int.emod_eq_of_lt (by omega) (by omega)]; simp

theorem combine_rep (h : DyadicExact ρ) {t z : ℤ} (hx : 0 ≤ t ∧ t < 2 ^ 53) (hy : 0 ≤ z ∧ z < 2 ^ 53) :
    combine ρ ((t : ℝ) / 2 ^ 53) ((z : ℝ) / 2 ^ 53) = (((t - z) % 2 ^ 53 : ℤ) : ℝ) / 2 ^ 53 := by
  unfold combine
  rw [h.sub (by rw [abs_le]; omega)]
  by_cases ht : t < z
  · rw [if_pos (dyadic_lt.2 ht)]
    conv_lhs => rw [one_dyadic]
    rw [h.add (by rw [abs_le]; omega)]
    have : (t - z) % 2 ^ 53 = 2 ^ 53 + (t - z) := by omega
    rw [this]
  · rw [if_neg (fun hc => ht (dyadic_lt.1 hc)), Int.emod_eq_of_lt (by omega) (by omega)]

theorem rngNext_rep (h : DyadicExact ρ) {g : Rng} {s : IntRng} (hr : RngRep g s) :
    ∃ g', rngNext ρ g = some (((intNext s).1 : ℝ) / 2 ^ 53, g') ∧ RngRep g' (intNext s).2 := by
  have hb := borrowStep_rep h hr.zx.2 hr.zy.2 hr.zc.2
  rw [← hr.zx.1, ← hr.zy.1, ← hr.zc.1] at hb
  have hz : 0 ≤ (s.zx - s.zy - s.zc) % 2 ^ 53 ∧ (s.zx - s.zy - s.zc) % 2 ^ 53 < 2 ^ 53 :=
    ⟨Int.emod_nonneg _ (by norm_num), Int.emod_lt_of_pos _ (by norm_num)⟩
  have hzc : (if s.zx - s.zy - s.zc < 0 then 1 else 0 : ℤ) = 0 ∨ (if s.zx - s.zy - s.zc < 0 then 1 else 0 : ℤ) = 1 := by split <;> simp
  unfold rngNext intNext
  simp only [hb, hr.indx]
  by_cases hi : s.indx < 1220
  · rw [if_pos hi, if_pos hi]
    refine ⟨{ g with indx := s.indx + 1, zx := g.zy, zy := (((s.zx - s.zy - s.zc) % 2 ^ 53 : ℤ) : ℝ) / 2 ^ 53, zc := (((if s.zx - s.zy - s.zc < 0 then 1 else 0 : ℤ)) : ℝ) / 2 ^ 53 }, ?_, ⟨hr.Q, rfl, hr.c, ⟨rfl, hzc⟩, hr.zy, ⟨rfl, hz⟩⟩⟩
    rw [(hr.Q _ hi).1, combine_rep h (hr.Q _ hi).2 hz]
  · rw [if_neg hi, if_neg hi]
    obtain ⟨Q', c', e, hQ, hc1, hc2⟩ := refill_rep h 1220 0 rfl g.Q s.Q g.c s.c hr.Q hr.c.1 hr.c.2
    rw [e]
    generalize intRefill 1220 0 s.Q s.c = r at *
    refine ⟨{ Q := Q', indx := 1, c := c', zx := g.zy, zy := (((s.zx - s.zy - s.zc) % 2 ^ 53 : ℤ) : ℝ) / 2 ^ 53, zc := (((if s.zx - s.zy - s.zc < 0 then 1 else 0 : ℤ)) : ℝ) / 2 ^ 53 }, ?_, ⟨hQ, rfl, ⟨hc1, hc2⟩, ⟨rfl, hzc⟩, hr.zy, ⟨rfl, hz⟩⟩⟩
    simp only
    rw [(hQ 0 (by norm_num)).1, combine_rep h (hQ 0 (by norm_num)).2 hz]

theorem rngDraws_rep (h : DyadicExact ρ) (n : Nat) {g : Rng} {s : IntRng} (hr : RngRep g s) :
    rngDraws ρ n g = some ((intDraws n s).map fun k : ℤ => (k : ℝ) / 2 ^ 53) := by
  induction n generalizing g s with
  | zero => rfl
  | succ n ih =>
    obtain ⟨g', e, hr'⟩ := rngNext_rep h hr
    simp only [rngDraws, e, ih hr', intDraws, List.map_cons]

theorem intNext_range (s : IntRng) : 0 ≤ (intNext s).1 ∧ (intNext s).1 < 2 ^ 53 := by
  unfold intNext
  simp only
  split
  · exact ⟨Int.emod_nonneg _ (by norm_num), Int.emod_lt_of_pos _ (by norm_num)⟩
  · exact ⟨Int.emod_nonneg _ (by norm_num), Int.emod_lt_of_pos _ (by norm_num)⟩

theorem intDraws_spec (n : Nat) (s : IntRng) : (intDraws n s).length = n ∧ ∀ k ∈ intDraws n s, 0 ≤ k ∧ k < 2 ^ 53 := by
  induction n generalizing s with
  | zero => simp [intDraws]
  | succ n ih =>
    refine ⟨by simp [intDraws, (ih _).1], fun k hk => ?_⟩
    rcases List.mem_cons.1 hk with rfl | hk
    · exact intNext_range s
    · exact (ih _).2 k hk

/-- One seeded entry is a multiple of 2^-52 below one: the `j` bits still to come are worth `t` times less than one. -/
theorem seedEntry_rep (h : DyadicExact ρ) (w : Nat) (j : Nat) (hj : j ≤ 52) (q : Nat × Nat) (a : ℤ) (ha : 0 ≤ a ∧ a + 2 * 2 ^ j ≤ 2 ^ 53) :
    ∃ b : ℤ, (seedEntry ρ w j q ((a : ℝ) / 2 ^ 53) (((2 * 2 ^ j : ℤ) : ℝ) / 2 ^ 53)).2 = (b : ℝ) / 2 ^ 53 ∧ 0 ≤ b ∧ b < 2 ^ 53 := by
  induction j generalizing q a with
  | zero =>
    refine ⟨a, rfl, ha.1, ?_⟩
    have := ha.2
    omega
  | succ j ih =>
    have hp : (0 : ℤ) < 2 ^ j := by positivity
    have hp2 : (2 : ℤ) ^ (j + 1) = 2 * 2 ^ j := by ring
    have ht : ρ (0.5 * (((2 * 2 ^ (j + 1) : ℤ) : ℝ) / 2 ^ 53)) = ((2 * 2 ^ j : ℤ) : ℝ) / 2 ^ 53 := by
      rw [← h (2 * 2 ^ j) (by rw [abs_le]; omega)]
      congr 1
      push_cast
      ring
    simp only [seedEntry]
    rw [ht]
    split
    · rw [h.add (by rw [abs_le]; omega)]
      exact ih (by omega) _ _ (by omega)
    · exact ih (by omega) _ _ (by omega)

theorem seedTable_rep (h : DyadicExact ρ) (w n i : Nat) (hn : i + n = 1220) (q : Nat × Nat) (Q : Nat → ℝ)
    (hQ : ∀ k, k < i → ∃ b : ℤ, Q k = (b : ℝ) / 2 ^ 53 ∧ 0 ≤ b ∧ b < 2 ^ 53) :
    ∀ k, k < 1220 → ∃ b : ℤ, seedTable ρ w n i q Q k = (b : ℝ) / 2 ^ 53 ∧ 0 ≤ b ∧ b < 2 ^ 53 := by
  induction n generalizing i q Q with
  | zero => intro k hk; exact hQ k (by omega)
  | succ n ih =>
    refine ih (i + 1) (by omega) _ _ fun k hk => ?_
    unfold upd
    by_cases hki : k = i
    · rw [if_pos hki]
      have := seedEntry_rep h w 52 le_rfl q 0 (by norm_num)
      have e : (((2 * 2 ^ 52 : ℤ)) : ℝ) / 2 ^ 53 = 1 := by norm_num
      rw [e] at this
      simpa using this
    · rw [if_neg hki]; exact hQ k (by omega)

theorem rngInit_rep (h : DyadicExact ρ) (w seed : Nat) :
    ∃ s, RngRep (rngInit ρ w seed) s ∧ s.zx = 5212886298506819 ∧ s.zy = 2020898595989513 ∧ s.c = 0 ∧ s.zc = 0 ∧ s.indx = 1220 := by
  have hQ := seedTable_rep h w 1220 0 rfl (if seed = 0 then 123456789 else seed, 362436069) (fun _ => 0) (fun k hk => absurd hk (by omega))
  choose! P hP using hQ
  refine ⟨⟨P, 1220, 0, 0, 5212886298506819, 2020898595989513⟩, ⟨?_, by simp only [rngInit], ⟨by simp [rngInit], Or.inl rfl⟩, ⟨by simp [rngInit], Or.inl rfl⟩, ⟨?_, by norm_num, by norm_num⟩,
    ⟨?_, by norm_num, by norm_num⟩⟩, rfl, rfl, rfl, rfl, rfl⟩
  · intro i hi; simp only [rngInit]; exact hP i hi
  · have := h 5212886298506819 (by norm_num)
    show ρ (5212886298506819 / 9007199254740992) = _
    rw [← this]; norm_num
  · have := h 2020898595989513 (by norm_num)
    show ρ (2020898595989513 / 9007199254740992) = _
    rw [← this]; norm_num

/-- **C36.** From any seed, any number of draws succeeds, and every number drawn is a multiple of 2^-53 in [0, 1). -/
theorem C36_draws_in_range (ρ : ℝ → ℝ) (h : DyadicExact ρ) (w seed n : Nat) :
    ∃ us, rngDraws ρ n (rngInit ρ w seed) = some us ∧ us.length = n ∧
      ∀ u ∈ us, 0 ≤ u ∧ u < 1 ∧ ∃ k : ℕ, k < 2 ^ 53 ∧ u = (k : ℝ) / 2 ^ 53 := by
  obtain ⟨s, hs, -⟩ := rngInit_rep h w seed
  refine ⟨_, rngDraws_rep h n hs, by rw [List.length_map, (intDraws_spec n s).1], fun u hu => ?_⟩
  obtain ⟨k, hk, rfl⟩ := List.mem_map.1 hu
  obtain ⟨h0, h1⟩ := (intDraws_spec n s).2 k hk
  refine ⟨?_, ?_, k.toNat, by omega, ?_⟩
  · have : (0 : ℝ) ≤ k := by exact_mod_cast h0
    positivity
  · rw [div_lt_one (by positivity)]; exact_mod_cast h1
  · have : ((k.toNat : ℤ) : ℝ) = (k : ℝ) := by rw [Int.toNat_of_nonneg h0]
    rw [← this]; rfl

/-- **C36, refinement.** The floating-point generator computes exactly the integer generator modulo 2^53: no rounding
ever takes place. -/
theorem C36_refines_integer_generator (ρ : ℝ → ℝ) (h : DyadicExact ρ) (g : Rng) (s : IntRng) (hr : RngRep g s) (n : Nat) :
    rngDraws ρ n g = some ((intDraws n s).map fun k : ℤ => (k : ℝ) / 2 ^ 53) := rngDraws_rep h n hr

/-- **C36, start.** The seeded state is one the refinement applies to. -/
theorem C36_seeded_state (ρ : ℝ → ℝ) (h : DyadicExact ρ) (w seed : Nat) :
    ∃ s, RngRep (rngInit ρ w seed) s ∧ s.zx = 5212886298506819 ∧ s.zy = 2020898595989513 ∧ s.c = 0 ∧ s.zc = 0 ∧ s.indx = 1220 :=
  rngInit_rep h w seed

/-- Exact arithmetic is an instance of the hypothesis. -/
theorem dyadicExact_id : DyadicExact id := fun _ _ => rfl

-- so is any rounding to multiples of 2^-60
example : DyadicExact fun x => (⌊x * 2 ^ 60⌋ : ℝ) / 2 ^ 60 := by
  intro k _
  have : (k : ℝ) / 2 ^ 53 * 2 ^ 60 = ((k * 128 : ℤ) : ℝ) := by push_cast; field_simp; norm_num
  simp only [this, Int.floor_intCast]
  push_cast; field_simp; norm_num

-- draws of the reference generator: not constant
example : intDraws 3 ⟨fun i => 10 * i, 0, 0, 0, 5, 3⟩ = [9007199254740990, 9, 19] := by decide +kernel

/-! ## C37 -/

/-- **C37, box.** A point sampled from a box lies in the box. -/
theorem C37_box (n : Nat) (xmin xmax us : Nat → ℝ) (hb : ∀ d, d < n → xmin d ≤ xmax d) (hu : ∀ d, d < n → 0 ≤ us d ∧ us d < 1) :
    ∀ d, d < n → xmin d ≤ sampleBox xmin xmax us d ∧ sampleBox xmin xmax us d ≤ xmax d ∧ (us d = 0 → sampleBox xmin xmax us d = xmin d) ∧
      (xmin d < xmax d → ∀ y, xmin d ≤ y → y < xmax d → us d = (y - xmin d) / (xmax d - xmin d) → sampleBox xmin xmax us d = y) := by
  intro d hd
  have h1 := hb d hd
  have h2 := hu d hd
  unfold sampleBox
  refine ⟨by nlinarith, by nlinarith, fun h => by rw [h]; ring, fun h y _ _ he => ?_⟩
  rw [he, div_mul_cancel₀ _ (sub_pos.2 h).ne']; ring

theorem addUp_eq (f : Nat → ℝ) (n : Nat) : addUp f n = ∑ i ∈ Finset.range n, f i := by
  induction n with
  | zero => rfl
  | succ n ih => rw [addUp, ih, Finset.sum_range_succ]

theorem realLt_weak : StrictWeak realLt :=
  ⟨realLt_asymm, fun a b c h1 h2 => by
    simp only [realLt, decide_eq_false_iff_not, not_lt] at *
    exact h1.trans h2⟩

/-- Sorting the cuts gives an increasing sequence from 0 to 1 with the same values. -/
theorem simplexCuts_sorted (n : Nat) (hn : 0 < n) (us : Nat → ℝ) (hu : ∀ k, 0 < k → k < n → 0 ≤ us k ∧ us k ≤ 1) :
    ∃ u, quicksort1 realLt (n + 1) (simplexCuts n us) 0 n = some u ∧ u 0 = 0 ∧ u n = 1 ∧ (∀ a b, a < b → b ≤ n → u a ≤ u b) ∧
      ((List.range (n + 1)).map u).Perm ((List.range (n + 1)).map (simplexCuts n us)) := by
  obtain ⟨u, e, hs, hp⟩ := C02_quicksort_list realLt realLt_weak (n + 1) (by omega) (simplexCuts n us)
  have hmono : ∀ a b, a < b → b ≤ n → u a ≤ u b := by
    obtain ⟨u', e', hs', -⟩ := C02_quicksort_sorts realLt realLt_weak (n + 1) (simplexCuts n us) 0 n (by omega) (by omega)
    rw [show n + 1 - 1 = n from rfl] at e
    rw [e] at e'
    cases e'
    intro a b hab hb
    have := hs' a b (Nat.zero_le _) hab hb
    simpa [realLt] using this
  have hmem : ∀ y, y ∈ (List.range (n + 1)).map u ↔ y ∈ (List.range (n + 1)).map (simplexCuts n us) := fun y => hp.mem_iff
  have hrange : ∀ k, k ≤ n → 0 ≤ u k ∧ u k ≤ 1 := by
    intro k hk
    have : u k ∈ (List.range (n + 1)).map u := List.mem_map.2 ⟨k, List.mem_range.2 (by omega), rfl⟩
    obtain ⟨j, hj, hj'⟩ := List.mem_map.1 ((hmem _).1 this)
    rw [← hj']
    have hj := List.mem_range.1 hj
    unfold simplexCuts
    split
    · norm_num
    · split
      · norm_num
      · exact hu j (by omega) (by omega)
  have h0 : u 0 ≤ 0 := by
    have : (0 : ℝ) ∈ (List.range (n + 1)).map (simplexCuts n us) :=
      List.mem_map.2 ⟨0, List.mem_range.2 (by omega), by unfold simplexCuts; rw [if_neg (by omega), if_pos rfl]⟩
    obtain ⟨j, hj, hj'⟩ := List.mem_map.1 ((hmem _).2 this)
    have hj := List.mem_range.1 hj
    rcases Nat.eq_zero_or_pos j with rfl | hpos
    · exact hj'.le
    · rw [← hj']; exact hmono 0 j hpos (by omega)
  have h1 : 1 ≤ u n := by
    have : (1 : ℝ) ∈ (List.range (n + 1)).map (simplexCuts n us) :=
      List.mem_map.2 ⟨n, List.mem_range.2 (by omega), by unfold simplexCuts; rw [if_pos rfl]⟩
    obtain ⟨j, hj, hj'⟩ := List.mem_map.1 ((hmem _).2 this)
    have hj := List.mem_range.1 hj
    rcases Nat.lt_or_ge j n with hlt | hge
    · rw [← hj']; exact hmono j n hlt le_rfl
    · have : j = n := by omega
      subst this; exact hj'.ge
  exact ⟨u, e, le_antisymm h0 (hrange 0 (by omega)).1, le_antisymm (hrange n le_rfl).2 h1, hmono, hp⟩

/-- **C37, simplex.** With at least one corner and draws in [0, 1), sampling succeeds and returns a convex combination of the
corners; the weights are the gaps between the sorted draws. -/
theorem C37_simplex (n : Nat) (hn : 0 < n) (x : Nat → Nat → ℝ) (us : Nat → ℝ) (hu : ∀ k, 0 < k → k < n → 0 ≤ us k ∧ us k < 1) :
    ∃ p v : Nat → ℝ, sampleSimplex n x us = some p ∧ (∀ i, i < n → 0 ≤ v i) ∧ ∑ i ∈ Finset.range n, v i = 1 ∧
      ∀ d, p d = ∑ i ∈ Finset.range n, v i * x i d := by
  obtain ⟨u, e, h0, h1, hm, -⟩ := simplexCuts_sorted n hn us (fun k h0 hk => ⟨(hu k h0 hk).1, (hu k h0 hk).2.le⟩)
  refine ⟨fun d => addUp (fun ic => (u (ic + 1) - u ic) * x ic d) n, fun i => u (i + 1) - u i, ?_, ?_, ?_, fun d => addUp_eq _ _⟩
  · unfold sampleSimplex; rw [e]
  · intro i hi; exact sub_nonneg.2 (hm i (i + 1) (by omega) (by omega))
  · rw [Finset.sum_range_sub, h0, h1]; norm_num

/-- **C37, nothing is missed.** If the draws are the partial sums of given barycentric coordinates, in any order, the sample
is the point with these coordinates. -/
theorem C37_simplex_reaches (n : Nat) (hn : 0 < n) (x : Nat → Nat → ℝ) (v : Nat → ℝ) (hv : ∀ i, i < n → 0 ≤ v i) (hsum : ∑ i ∈ Finset.range n, v i = 1)
    (us : Nat → ℝ) (σ : Equiv.Perm Nat) (hσ : ∀ k, k = 0 ∨ n ≤ k → σ k = k) (hus : ∀ k, 0 < k → k < n → us k = ∑ i ∈ Finset.range (σ k), v i) :
    ∃ p, sampleSimplex n x us = some p ∧ ∀ d, p d = ∑ i ∈ Finset.range n, v i * x i d := by
  set S : Nat → ℝ := fun k => ∑ i ∈ Finset.range k, v i with hS
  have hmonoS : ∀ a b, a ≤ b → b ≤ n → S a ≤ S b := by
    intro a b hab hb
    refine Finset.sum_le_sum_of_subset_of_nonneg (Finset.range_mono hab) fun i hi _ => hv i ?_
    have := Finset.mem_range.1 hi; omega
  have hσlt : ∀ k, 0 < k → k < n → 0 < σ k ∧ σ k < n := by
    intro k h0 hk
    constructor
    · by_contra hc
      have h1 : σ k = 0 := by omega
      have h2 : σ 0 = 0 := hσ 0 (Or.inl rfl)
      have := σ.injective (h1.trans h2.symm); omega
    · by_contra hc
      have h1 := hσ (σ k) (Or.inr (by omega))
      have := σ.injective h1; omega
  have hcut : ∀ k, k ≤ n → simplexCuts n us k = S (σ k) := by
    intro k hk
    unfold simplexCuts
    split
    · next h => rw [h, hσ n (Or.inr le_rfl)]; exact hsum.symm
    · split
      · next h => rw [h, hσ 0 (Or.inl rfl)]; simp [hS]
      · exact hus k (by omega) (by omega)
  obtain ⟨u, e, -, -, hm, hp⟩ := simplexCuts_sorted n hn us (by
    intro k h0 hk
    rw [hus k h0 hk]
    obtain ⟨-, h2⟩ := hσlt k h0 hk
    refine ⟨Finset.sum_nonneg fun i hi => hv i (by have := Finset.mem_range.1 hi; omega), ?_⟩
    rw [← hsum]; exact hmonoS _ _ h2.le le_rfl)
  have hp2 : ((List.range (n + 1)).map u).Perm ((List.range (n + 1)).map S) := by
    refine hp.trans ?_
    have e1 : (List.range (n + 1)).map (simplexCuts n us) = ((List.range (n + 1)).map σ).map S := by
      rw [List.map_map]
      exact List.map_congr_left fun k hk => hcut k (by have := List.mem_range.1 hk; omega)
    rw [e1]
    refine List.Perm.map S ?_
    rw [List.perm_ext_iff_of_nodup (List.nodup_range.map σ.injective) List.nodup_range]
    intro k
    simp only [List.mem_map, List.mem_range]
    constructor
    · rintro ⟨a, ha, rfl⟩
      by_contra hc
      have := σ.injective (hσ (σ a) (Or.inr (by omega)))
      omega
    · intro hk
      refine ⟨σ.symm k, ?_, by simp⟩
      by_contra hc
      have h1 := hσ (σ.symm k) (Or.inr (by omega))
      simp at h1
      omega
  have heq : (List.range (n + 1)).map u = (List.range (n + 1)).map S := by
    refine List.Perm.eq_of_pairwise (le := fun a b : ℝ => a ≤ b) (fun a b _ _ h1 h2 => le_antisymm h1 h2) ?_ ?_ hp2
    · rw [List.pairwise_map]
      refine (List.Pairwise.and_mem.1 (List.pairwise_lt_range (n := n + 1))).imp ?_
      rintro a b ⟨-, hb, hab⟩
      exact hm a b hab (by have := List.mem_range.1 hb; omega)
    · rw [List.pairwise_map]
      refine (List.Pairwise.and_mem.1 (List.pairwise_lt_range (n := n + 1))).imp ?_
      rintro a b ⟨-, hb, hab⟩
      exact hmonoS a b hab.le (by have := List.mem_range.1 hb; omega)
  have hu : ∀ k, k ≤ n → u k = S k := by
    intro k hk
    exact (List.map_inj_left.1 heq) k (List.mem_range.2 (by omega))
  refine ⟨_, by unfold sampleSimplex; rw [e], fun d => ?_⟩
  rw [addUp_eq]
  refine Finset.sum_congr rfl fun i hi => ?_
  have hi := Finset.mem_range.1 hi
  rw [hu (i + 1) (by omega), hu i (by omega)]
  simp only [hS, Finset.sum_range_succ]
  ring

-- a triangle sampled with draws 0.7 and 0.2
example : ∃ p v : Nat → ℝ, sampleSimplex 3 (fun i d => if i = d then 1 else 0) (fun k => if k = 1 then 0.7 else 0.2) = some p ∧ p 0 + p 1 + p 2 = 1 := by
  obtain ⟨p, v, e, -, hs, hp⟩ := C37_simplex 3 (by norm_num) (fun i d => if i = d then 1 else 0) (fun k => if k = 1 then 0.7 else 0.2)
    (by intro k _ _; split <;> norm_num)
  refine ⟨p, v, e, ?_⟩
  rw [hp, hp, hp]
  simpa [Finset.sum_range_succ] using hs

/-! ## C68 -/

theorem sphereCoords_spec (τ : ℝ) (n : Nat) (us : List ℝ) (hlen : n + 1 ≤ us.length) (hu : ∀ u ∈ us, 0 < u ∧ u < 1) :
    ∃ l, sphereCoords τ n us = some l ∧ l.length = n ∧ (2 ≤ n → 0 < (l.map fun a => a * a).sum) := by
  induction n using Nat.strong_induction_on generalizing us with
  | _ n ih =>
    match n, us, hlen, hu with
    | 0, us, _, _ => exact ⟨[], by simp [sphereCoords], rfl, by omega⟩
    | 1, u1 :: u2 :: us, _, hu =>
      refine ⟨_, by simp only [sphereCoords]; rw [if_neg (hu u1 (by simp)).1.ne'], rfl, by omega⟩
    | n + 2, u1 :: u2 :: us, hlen, hu =>
      obtain ⟨l, e, hl, -⟩ := ih n (by omega) us (by simp at hlen; omega) (fun u h => hu u (by simp [h]))
      refine ⟨_, by simp only [sphereCoords]; rw [if_neg (hu u1 (by simp)).1.ne', e], by simp [hl], fun _ => ?_⟩
      obtain ⟨h0, h1⟩ := hu u1 (by simp)
      have hlog : 0 < -2 * Real.log u1 := by have := Real.log_neg h0 h1; linarith
      have hnn : 0 ≤ (l.map fun a => a * a).sum := List.sum_nonneg fun y hy => by
        obtain ⟨a, -, rfl⟩ := List.mem_map.1 hy
        exact mul_self_nonneg a
      simp only [List.map_cons, List.sum_cons]
      have hcs := Real.sin_sq_add_cos_sq (τ * u2)
      have hsq := Real.mul_self_sqrt hlog.le
      have : Real.sqrt (-2 * Real.log u1) * Real.cos (τ * u2) * (Real.sqrt (-2 * Real.log u1) * Real.cos (τ * u2)) +
          Real.sqrt (-2 * Real.log u1) * Real.sin (τ * u2) * (Real.sqrt (-2 * Real.log u1) * Real.sin (τ * u2)) = -2 * Real.log u1 := by
        calc _ = (Real.sqrt (-2 * Real.log u1) * Real.sqrt (-2 * Real.log u1)) * (Real.sin (τ * u2) ^ 2 + Real.cos (τ * u2) ^ 2) := by ring
          _ = _ := by rw [hcs, hsq, mul_one]
      linarith
    | 1, [_], h, _ => simp at h
    | 1, [], h, _ => simp at h
    | n + 2, [_], h, _ => simp at h
    | n + 2, [], h, _ => simp at h

/-- **C68.** In two or more dimensions, with draws strictly between 0 and 1, the sampled direction has length one. -/
theorem C68_unit_length (τ : ℝ) (n : Nat) (hn : 2 ≤ n) (us : List ℝ) (hlen : n + 1 ≤ us.length) (hu : ∀ u ∈ us, 0 < u ∧ u < 1) :
    ∃ l, sampleSphere τ n us = some l ∧ l.length = n ∧ (l.map fun a => a ^ 2).sum = 1 := by
  obtain ⟨l, e, hl, hpos⟩ := sphereCoords_spec τ n us hlen hu
  have hpos := hpos hn
  refine ⟨_, by unfold sampleSphere; rw [if_neg (by omega), e]; simp only; rw [if_neg hpos.ne'], by simp [hl], ?_⟩
  set S := (l.map fun a => a * a).sum with hS
  rw [List.map_map]
  have : (l.map ((fun a => a ^ 2) ∘ fun a => a * (1 / Real.sqrt S))) = (l.map fun a => a * a).map fun b => b * (1 / Real.sqrt S) ^ 2 := by
    rw [List.map_map]
    exact List.map_congr_left fun a _ => by simp only [Function.comp]; ring
  rw [this, List.sum_map_mul_right, List.map_id', ← hS, div_pow, Real.sq_sqrt hpos.le]
  field_simp

/-- **C68 without its precondition is false**: the generator can return 0, and then the direction is not a number. -/
theorem C68_zero_draw_undefined (τ u2 : ℝ) (n : Nat) (us : List ℝ) : sampleSphere τ n (0 :: u2 :: us) = none := by
  unfold sampleSphere
  match n with
  | 0 => rfl
  | 1 => simp [sphereCoords]
  | n + 2 => simp [sphereCoords]

/-- **C68, zero dimensions.** The loop never ends and writes past the array. -/
theorem C68_no_dimension_undefined (τ : ℝ) (us : List ℝ) : sampleSphere τ 0 us = none := rfl

example : ∃ l, sampleSphere 6.28 3 [0.5, 0.25, 0.5, 0.75] = some l ∧ (l.map fun a => a ^ 2).sum = 1 := by
  obtain ⟨l, e, -, h⟩ := C68_unit_length 6.28 3 (by norm_num) [0.5, 0.25, 0.5, 0.75] (by simp) (by
    intro u hu
    simp only [List.mem_cons, List.not_mem_nil, or_false] at hu
    rcases hu with rfl | rfl | rfl | rfl <;> norm_num)
  exact ⟨l, e, h⟩

/-! ## C35 -/

theorem cdfSearch_spec (cdf : Nat → ℝ) (n : Nat) (u : ℝ) (hmono : ∀ a b, a ≤ b → b < n → cdf a ≤ cdf b) (fuel ist iend : Nat) (h1 : ist ≤ iend) (h2 : iend < n)
    (hlo : (if ist > 0 then cdf (ist - 1) else 0) ≤ u) (hhi : u ≤ cdf iend) (hf : iend - ist < fuel) :
    ∃ i, cdfSearch cdf n u fuel ist iend = some i ∧ i < n ∧ (if i > 0 then cdf (i - 1) else 0) ≤ u ∧ u ≤ cdf i := by
  induction fuel generalizing ist iend with
  | zero => omega
  | succ fuel ih =>
    simp only [cdfSearch]
    have hm1 : ist ≤ (ist + iend) / 2 := by omega
    have hm2 : (ist + iend) / 2 ≤ iend := by omega
    set m := (ist + iend) / 2 with hm
    rw [if_pos (by omega : m < n)]
    by_cases hc : (if m > 0 then cdf (m - 1) else 0) ≤ u ∧ u ≤ cdf m
    · rw [if_pos hc]; exact ⟨m, rfl, by omega, hc⟩
    · rw [if_neg hc]
      by_cases hlt : u < (if m > 0 then cdf (m - 1) else 0)
      · rw [if_pos hlt]
        have hne : ist ≠ m := by
          intro hc'
          rw [hc'] at hlo
          exact absurd hlo (not_le.2 hlt)
        refine ih ist m hm1 (by omega) hlo ?_ (by omega)
        rw [if_pos (by omega : m > 0)] at hlt
        exact hlt.le.trans (hmono _ _ (by omega) (by omega))
      · rw [if_neg hlt]
        have hgt : cdf m < u := by
          by_contra hle
          exact hc ⟨not_lt.1 hlt, not_lt.1 hle⟩
        have hne : m ≠ iend := by rintro h; rw [h] at hgt; exact absurd hhi (not_le.2 hgt)
        refine ih (m + 1) iend (by omega) h2 ?_ hhi (by omega)
        rw [if_pos (by omega)]; exact hgt.le

/-- **C35, generator's table.** For a nondecreasing table with last entry positive and a draw in [0, 1) the search ends with an
index inside the table whose interval contains the scaled draw. -/
theorem C35_discrete_cdf (cdf : Nat → ℝ) (n : Nat) (hn : 0 < n) (hmono : ∀ a b, a ≤ b → b < n → cdf a ≤ cdf b) (hpos : 0 < cdf (n - 1))
    (v : ℝ) (hv : 0 ≤ v ∧ v < 1) (fuel : Nat) (hf : n ≤ fuel) :
    ∃ i, discreteCdf cdf n v fuel = some i ∧ i < n ∧ (if i > 0 then cdf (i - 1) else 0) ≤ v * cdf (n - 1) ∧ v * cdf (n - 1) ≤ cdf i := by
  unfold discreteCdf
  rw [if_neg hn.ne', if_neg hpos.ne']
  exact cdfSearch_spec cdf n _ hmono fuel 0 (n - 1) (by omega) (by omega) (by simpa using mul_nonneg hv.1 hpos.le) (by nlinarith [hv.2]) (by omega)

/-- **C35, empty distribution.** When the last entry is zero every cell is drawn with equal probability: cell `i` exactly for
draws in [i/n, (i+1)/n). -/
theorem C35_zero_cdf (cdf : Nat → ℝ) (n : Nat) (hn : 0 < n) (hz : cdf (n - 1) = 0) (v : ℝ) (hv : 0 ≤ v ∧ v < 1) (fuel : Nat) :
    ∃ i, discreteCdf cdf n v fuel = some i ∧ i < n ∧ (i : ℝ) / n ≤ v ∧ v < (i + 1) / n := by
  unfold discreteCdf
  rw [if_neg hn.ne', if_pos hz]
  have hnr : (0 : ℝ) < n := by exact_mod_cast hn
  have hnn : 0 ≤ (n : ℝ) * v := mul_nonneg hnr.le hv.1
  have hlt : ⌊(n : ℝ) * v⌋₊ < n := by
    rw [Nat.floor_lt hnn]; nlinarith [hv.2]
  rw [if_neg hlt.ne]
  refine ⟨_, rfl, hlt, ?_, ?_⟩
  · rw [div_le_iff₀ hnr, mul_comm v]; exact Nat.floor_le hnn
  · rw [lt_div_iff₀ hnr, mul_comm v]; exact Nat.lt_floor_add_one _

/-- **C35, precondition.** An empty table is read out of range. -/
theorem C35_empty_table_undefined (cdf : Nat → ℝ) (v : ℝ) (fuel : Nat) : discreteCdf cdf 0 v fuel = none := rfl

theorem tableSearch_spec (n : Nat) (gt lt : Nat → Bool) (fuel ist iend : Nat) (h1 : ist ≤ iend) (h2 : iend < n) (hf : iend - ist < fuel) :
    ∃ i, tableSearch n gt lt fuel ist iend = some i ∧ ist ≤ i ∧ i ≤ iend ∧ (i = ist ∨ lt (i - 1) = true ∨ (gt i = false ∧ lt i = false)) ∧
      (i = iend ∨ gt i = true ∨ (gt i = false ∧ lt i = false)) := by
  induction fuel generalizing ist iend with
  | zero => omega
  | succ fuel ih =>
    simp only [tableSearch]
    by_cases h : iend > ist
    · rw [if_pos h]
      have hm1 : ist ≤ (ist + iend) / 2 := by omega
      have hm2 : (ist + iend) / 2 < iend := by omega
      set m := (ist + iend) / 2 with hm
      rw [if_pos (by omega : m < n)]
      by_cases hg : gt m = true
      · rw [if_pos hg]
        obtain ⟨i, e, a, b, c, d⟩ := ih ist m hm1 (by omega) (by omega)
        refine ⟨i, e, a, by omega, c, ?_⟩
        rcases d with d | d
        · exact Or.inr (Or.inl (d ▸ hg))
        · exact Or.inr d
      · rw [if_neg hg]
        by_cases hl : lt m = true
        · rw [if_pos hl]
          obtain ⟨i, e, a, b, c, d⟩ := ih (m + 1) iend (by omega) h2 (by omega)
          refine ⟨i, e, by omega, b, ?_, d⟩
          rcases c with c | c
          · exact Or.inr (Or.inl (by rw [c]; exact hl))
          · exact Or.inr c
        · rw [if_neg hl]
          obtain ⟨i, e, a, b, -, -⟩ := ih m m le_rfl (by omega) (by omega)
          have him : i = m := by omega
          have hx : gt i = false ∧ lt i = false := by rw [him]; exact ⟨by simpa using hg, by simpa using hl⟩
          exact ⟨i, e, by omega, by omega, Or.inr (Or.inr hx), Or.inr (Or.inr hx)⟩
    · rw [if_neg h]
      exact ⟨ist, rfl, le_rfl, h1, Or.inl rfl, Or.inl (by omega)⟩

/-- **C35, sampler's search, any comparisons.** Whatever the entries compare like (unsorted, NaN), the search of a non-empty
table ends with an index inside it. -/
theorem C35_search_in_range (n : Nat) (hn : 0 < n) (gt lt : Nat → Bool) (fuel : Nat) (hf : n ≤ fuel) :
    ∃ i, tablePick n gt lt fuel = some i ∧ i < n := by
  obtain ⟨i, e, -, h, -⟩ := tableSearch_spec n gt lt fuel 0 (n - 1) (by omega) (by omega) (by omega)
  exact ⟨i, by unfold tablePick; rw [if_neg hn.ne']; exact e, by omega⟩

/-- **C35, sampler's search.** For any draw not above the last entry the index found has the draw in its interval. -/
theorem C35_search_interval (cdf : Nat → ℝ) (n : Nat) (hn : 0 < n) (hmono : ∀ a b, a ≤ b → b < n → cdf a ≤ cdf b) (u : ℝ) (hu : u ≤ cdf (n - 1))
    (fuel : Nat) (hf : n ≤ fuel) :
    ∃ i, tablePick n (fun i => realLt u (cdf i)) (fun i => realLt (cdf i) u) fuel = some i ∧ i < n ∧
      (i = 0 ∨ cdf (i - 1) ≤ u) ∧ u ≤ cdf i := by
  obtain ⟨i, e, -, h, c, d⟩ := tableSearch_spec n (fun i => realLt u (cdf i)) (fun i => realLt (cdf i) u) fuel 0 (n - 1) (by omega) (by omega) (by omega)
  simp only [realLt, decide_eq_true_eq, decide_eq_false_iff_not, not_lt] at c d
  refine ⟨i, by unfold tablePick; rw [if_neg hn.ne']; exact e, by omega, ?_, ?_⟩
  · rcases c with c | c | ⟨c1, c2⟩
    · exact Or.inl c
    · exact Or.inr c.le
    · exact Or.inr ((hmono _ _ (by omega) (by omega)).trans c1)
  · rcases d with d | d | ⟨-, d⟩
    · rw [d]; exact hu
    · exact d.le
    · exact d

/-- **C35, precondition.** With no entries the search reads out of range. -/
theorem C35_search_empty_undefined (gt lt : Nat → Bool) (fuel : Nat) : tablePick 0 gt lt fuel = none := rfl

theorem cumulate_spec (n i : Nat) (hi : 0 < i) (a w : Nat → ℝ) (hlo : ∀ k, k < i → a k = ∑ j ∈ Finset.range (k + 1), w j) (hhi : ∀ k, i ≤ k → a k = w k) :
    ∀ k, (k < i + n → cumulate n i a k = ∑ j ∈ Finset.range (k + 1), w j) ∧ (i + n ≤ k → cumulate n i a k = w k) := by
  induction n generalizing i a with
  | zero => intro k; exact ⟨fun h => hlo k (by omega), fun h => hhi k (by omega)⟩
  | succ n ih =>
    intro k
    have := ih (i + 1) (by omega) (upd a i (a i + a (i - 1))) (by
      intro k hk
      unfold upd
      split
      · next h =>
        subst h
        rw [hhi k le_rfl, hlo (k - 1) (by omega), Nat.sub_add_cancel hi, Finset.sum_range_succ]; ring
      · exact hlo k (by omega)) (by
      intro k hk
      unfold upd
      rw [if_neg (by omega)]; exact hhi k (by omega)) k
    exact ⟨fun h => this.1 (by omega), fun h => this.2 (by omega)⟩

theorem normaliseTable_spec (last n i : Nat) (hn : i + n = last + 1) (a b : Nat → ℝ) (hlo : ∀ k, k < i → a k = b k / b last) (hhi : ∀ k, i ≤ k → a k = b k) :
    ∀ k, k ≤ last → normaliseTable last n i a k = b k / b last := by
  induction n generalizing i a with
  | zero => intro k hk; exact hlo k (by omega)
  | succ n ih =>
    refine ih (i + 1) (by omega) _ ?_ ?_
    · intro k hk
      unfold upd
      split
      · next h => rw [h, hhi i le_rfl, hhi last (by omega)]
      · exact hlo k (by omega)
    · intro k hk
      unfold upd
      rw [if_neg (by omega)]; exact hhi k (by omega)

/-- **C35, the table.** The table built in place from weights that are not all zero is nondecreasing, ends with exactly 1, and
the width of the interval of cell `i` is the share of weight `i`. -/
theorem C35_weight_table (n : Nat) (hn : 0 < n) (w : Nat → ℝ) (hw : ∀ i, i < n → 0 ≤ w i) (hpos : 0 < ∑ j ∈ Finset.range n, w j) :
    (∀ a b, a ≤ b → b < n → weightTable n w a ≤ weightTable n w b) ∧ weightTable n w (n - 1) = 1 ∧
      ∀ i, i < n → weightTable n w i - (if i > 0 then weightTable n w (i - 1) else 0) = w i / ∑ j ∈ Finset.range n, w j := by
  set b := cumulate (n - 1) 1 w with hb
  have hbs : ∀ k, k < n → b k = ∑ j ∈ Finset.range (k + 1), w j := fun k hk =>
    (cumulate_spec (n - 1) 1 (by omega) w w (by intro k hk; have : k = 0 := by omega
                                                subst this; simp) (fun _ _ => rfl) k).1 (by omega)
  have hlast : b (n - 1) = ∑ j ∈ Finset.range n, w j := by rw [hbs _ (by omega), Nat.sub_add_cancel hn]
  have ht : ∀ k, k < n → weightTable n w k = (∑ j ∈ Finset.range (k + 1), w j) / ∑ j ∈ Finset.range n, w j := by
    intro k hk
    rw [← hbs k hk, ← hlast]
    exact normaliseTable_spec (n - 1) n 0 (by omega) b b (fun k hk => absurd hk (by omega)) (fun _ _ => rfl) k (by omega)
  refine ⟨fun a c hac hc => ?_, ?_, fun i hi => ?_⟩
  · rw [ht a (by omega), ht c hc]
    refine div_le_div_of_nonneg_right ?_ hpos.le
    refine Finset.sum_le_sum_of_subset_of_nonneg (Finset.range_mono (by omega)) fun i hi _ => hw i ?_
    have := Finset.mem_range.1 hi; omega
  · rw [ht _ (by omega), Nat.sub_add_cancel hn, div_self hpos.ne']
  · rw [ht i hi]
    split
    · next h =>
      rw [ht _ (by omega), Nat.sub_add_cancel h, Finset.sum_range_succ]; ring
    · next h =>
      have : i = 0 := by omega
      subst this; simp

/-- **C35, whole draw.** A cell drawn through the table built from the weights has the draw within its share. -/
theorem C35_weighted_draw (n : Nat) (hn : 0 < n) (w : Nat → ℝ) (hw : ∀ i, i < n → 0 ≤ w i) (hpos : 0 < ∑ j ∈ Finset.range n, w j)
    (u : ℝ) (hu : 0 ≤ u ∧ u < 1) (fuel : Nat) (hf : n ≤ fuel) :
    ∃ i, tablePick n (fun i => realLt u (weightTable n w i)) (fun i => realLt (weightTable n w i) u) fuel = some i ∧ i < n ∧
      (∑ j ∈ Finset.range i, w j) / (∑ j ∈ Finset.range n, w j) ≤ u ∧ u ≤ (∑ j ∈ Finset.range (i + 1), w j) / ∑ j ∈ Finset.range n, w j := by
  obtain ⟨h1, h2, h3⟩ := C35_weight_table n hn w hw hpos
  obtain ⟨i, e, hi, a, b⟩ := C35_search_interval (weightTable n w) n hn h1 u (by rw [h2]; exact hu.2.le) fuel hf
  have hsum : ∀ k, k < n → weightTable n w k = (∑ j ∈ Finset.range (k + 1), w j) / ∑ j ∈ Finset.range n, w j := by
    intro k
    induction k with
    | zero => intro hk; have := h3 0 hk; simpa using this
    | succ k ih =>
      intro hk
      have := h3 (k + 1) hk
      rw [if_pos (by omega), Nat.add_sub_cancel, ih (by omega)] at this
      rw [Finset.sum_range_succ, add_div]; linarith
  refine ⟨i, e, hi, ?_, by rw [← hsum i hi]; exact b⟩
  rcases a with a | a
  · subst a; simpa using hu.1
  · rcases Nat.eq_zero_or_pos i with h0 | h0
    · subst h0; simpa using hu.1
    · rw [hsum _ (by omega), Nat.sub_add_cancel h0] at a; exact a

-- three weights, draw 0.5
example : ∃ i, tablePick 3 (fun i => realLt 0.5 (weightTable 3 (fun _ => 1) i)) (fun i => realLt (weightTable 3 (fun _ => 1) i) 0.5) 3 = some i ∧ i = 1 := by
  obtain ⟨i, e, hi, a, b⟩ := C35_weighted_draw 3 (by norm_num) (fun _ => 1) (by intros; norm_num) (by norm_num) 0.5 (by norm_num) 3 le_rfl
  refine ⟨i, e, ?_⟩
  simp only [Finset.sum_const, Finset.card_range, nsmul_eq_mul, mul_one] at a b
  have : i = 0 ∨ i = 1 ∨ i = 2 := by omega
  rcases this with rfl | rfl | rfl
  · norm_num at b
  · rfl
  · norm_num at a

example : ∃ i, discreteCdf (fun i => i + 1) 4 0.6 4 = some i ∧ i < 4 := by
  obtain ⟨i, e, hi, -⟩ := C35_discrete_cdf (fun i => i + 1) 4 (by norm_num) (fun a b h _ => by
    have : (a : ℝ) ≤ b := by exact_mod_cast h
    linarith) (by norm_num) 0.6 (by norm_num) 4 le_rfl
  exact ⟨i, e, hi⟩

end VoroCrust
