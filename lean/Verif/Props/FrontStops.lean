import Mathlib.Data.Fintype.Pi
import Mathlib.Order.Interval.Finset.Basic
import Mathlib.Algebra.Order.Floor.Ring
import Verif.Props.Front

/-! C111: the seeding of the interior ends, whatever the random numbers, when the outer seeds fence the inside. -/

namespace VoroCrust

/-- Points of a box that keep a distance are not more than a number which depends on box and distance only. -/
theorem packing {r : ℝ} (hr : 0 < r) (B : ℝ) :
    ∃ M : Nat, ∀ ps : List (Nat → ℝ), (∀ p ∈ ps, ∀ d, d < 3 → |p d| ≤ B) → ps.Pairwise (fun a b => r ≤ euclid 3 a b) → ps.length ≤ M := by
  classical
  let cell : (Nat → ℝ) → Fin 3 → ℤ := fun p d => ⌊p d * (2 / r)⌋
  let K : ℤ := ⌈B * (2 / r)⌉ + 1
  let S : Finset (Fin 3 → ℤ) := Fintype.piFinset fun _ => Finset.Icc (-K) K
  refine ⟨S.card, fun ps hb hp => ?_⟩
  have h2 : 0 < 2 / r := by positivity
  have hmem : ∀ c ∈ ps.map cell, c ∈ S := by
    intro c hc
    obtain ⟨p, hp', rfl⟩ := List.mem_map.1 hc
    refine Fintype.mem_piFinset.2 fun d => Finset.mem_Icc.2 ?_
    have h3 := abs_le.1 (hb p hp' d.val d.isLt)
    have h4 : p d.val * (2 / r) ≤ B * (2 / r) := mul_le_mul_of_nonneg_right h3.2 h2.le
    have h5 : -(B * (2 / r)) ≤ p d.val * (2 / r) := by
      have := mul_le_mul_of_nonneg_right h3.1 h2.le
      linarith
    have h6 := Int.le_ceil (B * (2 / r))
    constructor
    · refine Int.le_floor.2 ?_
      simp only [K]
      push_cast
      linarith
    · refine Int.floor_le_iff.2 ?_
      simp only [K]
      push_cast
      linarith
  have hnd : (ps.map cell).Nodup := by
    refine List.pairwise_map.2 (hp.imp fun {a b} hab he => ?_)
    have hd : ∀ d, d < 3 → (a d - b d) ^ 2 ≤ (r / 2) ^ 2 := by
      intro d hd
      have := Int.abs_sub_lt_one_of_floor_eq_floor (congrFun he ⟨d, hd⟩)
      simp only at this
      rw [← sub_mul, abs_mul, abs_of_pos h2] at this
      have h7 : |a d - b d| ≤ r / 2 := by
        rw [← mul_div_assoc, div_lt_one hr] at this
        linarith
      exact sq_le_sq' (by linarith [neg_abs_le (a d - b d)]) (by linarith [le_abs_self (a d - b d)])
    have h8 : euclid 3 a b ^ 2 ≤ 3 * (r / 2) ^ 2 := by
      have := distSq3_sq a b
      unfold distSq3 at this
      nlinarith [hd 0 (by norm_num), hd 1 (by norm_num), hd 2 (by norm_num)]
    nlinarith [euclid_nonneg 3 a b]
  rw [← List.length_map cell, ← List.toFinset_card_of_nodup hnd]
  exact Finset.card_le_card fun c hc => hmem c (List.mem_toFinset.1 hc)

/-- Outside all spheres of corners, edges and surface. -/
def ClearOf (F : Features) (p : Nat → ℝ) : Prop := ∀ q, q ∈ F.surface ∨ q ∈ F.edges ∨ q ∈ F.corners → q.size ≤ euclid 3 p q.x

/-- The inside `D` is bounded and contains all seeds which are not outer seeds.  Each point that is not in `D`, and is clear of the spheres, is closer to some outer seed than to each point of `D`;
for a Lipschitz constant below 1/4 it has to be closer by a factor. -/
structure Fenced (F : Features) (L : ℝ) (seeds : List SeedRec) (D : Set (Nat → ℝ)) : Prop where
  bounded : ∃ B : ℝ, ∀ x ∈ D, ∀ d, d < 3 → |x d| ≤ B
  inside : ∀ a ∈ seeds, a.region ≠ 0 → a.x ∈ D
  wall : ∀ p, p ∉ D → ClearOf F p → ∃ q ∈ seeds, q.region = 0 ∧ ∀ x ∈ D, euclid 3 p q.x < min 1 ((1 + 2 * L) / (2 * (1 - L))) * euclid 3 p x

/-- Invariant of the rounds of a fenced front. -/
structure FencedState (D : Set (Nat → ℝ)) (seeds : List SeedRec) (r : ℝ) (all : List SeedRec) : Prop where
  inside : ∀ a ∈ all, a.region ≠ 0 → a.x ∈ D
  least : ∀ a ∈ all, r ≤ a.size
  keep : ∀ q ∈ seeds, ∃ q' ∈ all, q'.x = q.x ∧ q'.region = q.region
  length : seeds.length ≤ all.length
  far : ∀ (i : Nat) (b : SeedRec), seeds.length ≤ i → all[i]? = some b → ∀ a ∈ seeds, r ≤ euclid 3 b.x a.x

/-- An accepted dart is in the inside. -/
theorem NewSeed.fenced {F : Features} {L rmax r : ℝ} {seeds all : List SeedRec} {D : Set (Nat → ℝ)} {s p : SeedRec} (hL : L < 1) (hD : Fenced F L seeds D) (hs : FencedState D seeds r all)
    (ha : s ∈ all) (h0 : s.region ≠ 0) (h : NewSeed F L rmax all s p) : p.x ∈ D := by
  by_contra hp
  obtain ⟨q, hq, -, hw⟩ := hD.wall p.x hp h.features
  obtain ⟨q', hq', hx, -⟩ := hs.keep q hq
  obtain ⟨c, hc, c1, -, -, c2⟩ := h.closest
  have hsD := hs.inside s ha h0
  have hcD := hs.inside c hc (by rw [c1]; exact h0)
  have h1L : 0 < 1 - L := by linarith
  have e := h.near
  have e0 := euclid_nonneg 3 p.x s.x
  have h2 := hw _ hsD
  have h3 := euclid_triangle 3 s.x p.x q.x
  rw [euclid_comm 3 s.x p.x] at h3
  have h5 : (1 + 2 * L) / (2 * (1 - L)) = 3 / (2 * (1 - L)) - 1 := by field_simp; ring
  have h4 : min 1 ((1 + 2 * L) / (2 * (1 - L))) * euclid 3 p.x s.x ≤ (3 / (2 * (1 - L)) - 1) * euclid 3 p.x s.x := by
    rw [← h5]; exact mul_le_mul_of_nonneg_right (min_le_right _ _) e0
  have h6 : euclid 3 s.x q.x < 3 / (2 * (1 - L)) * euclid 3 p.x s.x := by rw [sub_mul] at h4; linarith
  have h7 : 3 / (2 * (1 - L)) * euclid 3 p.x s.x ≤ 3 / (2 * (1 - L)) * (2 * s.size) := mul_le_mul_of_nonneg_left e (by positivity)
  have h8 : 3 / (2 * (1 - L)) * (2 * s.size) = 3 / (1 - L) * s.size := by field_simp
  have h9 := c2 q' hq' (by rw [hx]; linarith)
  rw [hx] at h9
  have h10 := hw _ hcD
  have h11 : min 1 ((1 + 2 * L) / (2 * (1 - L))) * euclid 3 p.x c.x ≤ 1 * euclid 3 p.x c.x := mul_le_mul_of_nonneg_right (min_le_left _ _) (euclid_nonneg 3 p.x c.x)
  linarith

/-- An accepted dart keeps the least size as distance to all earlier seeds. -/
theorem NewSeed.apart {F : Features} {L rmax r : ℝ} {all : List SeedRec} {s p : SeedRec} (hL0 : 0 ≤ L) (hL : L < 1) (hr : ∀ a ∈ all, r ≤ a.size) (hr0 : 0 ≤ r)
    (ha : s ∈ all) (h : NewSeed F L rmax all s p) {q : SeedRec} (hq : q ∈ all) : r ≤ euclid 3 p.x q.x := by
  by_cases hd : euclid 3 s.x q.x < 3 / (1 - L) * s.size
  · exact (hr q hq).trans (h.looked q hq hd)
  · have h1L : 0 < 1 - L := by linarith
    have h1 : 3 * s.size ≤ 3 / (1 - L) * s.size := by
      refine mul_le_mul_of_nonneg_right ?_ (hr0.trans (hr s ha))
      rw [le_div_iff₀ h1L]
      linarith
    have h2 := euclid_triangle 3 s.x p.x q.x
    rw [euclid_comm 3 s.x p.x] at h2
    have h3 := h.near
    have h4 := hr s ha
    linarith

theorem BigEnough.least {F : Features} {L rmax r : ℝ} (hL : 0 ≤ L) {xs : List SeedRec} (hx : ∀ a ∈ xs, r ≤ a.size) (hm : r ≤ rmax) (hs : ∀ q ∈ F.sizing, r ≤ q.size) {b : SeedRec} (h : BigEnough F L rmax xs b) :
    r ≤ b.size := by
  rcases h with ⟨a, ha, hab⟩ | h | ⟨q, hq, h⟩
  · have := hx a ha
    have := mul_nonneg hL (euclid_nonneg 3 b.x a.x)
    linarith
  · linarith
  · have := hs q hq
    linarith

/-- The state after a list has grown. -/
theorem FencedState.grown {F : Features} {L rmax r : ℝ} {D : Set (Nat → ℝ)} {seeds all all' : List SeedRec} (hL : 0 ≤ L) (hm : r ≤ rmax) (hz : ∀ q ∈ F.sizing, r ≤ q.size) (h : FencedState D seeds r all)
    (hg : Grown F L rmax all all') (hl : all'.length = all.length) : FencedState D seeds r all' := by
  refine ⟨fun a ha h0 => ?_, fun a ha => (hg.least a ha).least hL h.least hm hz, fun q hq => ?_, by rw [hl]; exact h.length, fun i b hi hb => ?_⟩
  · obtain ⟨i, hi⟩ := List.getElem?_of_mem ha
    have hi' : i < all.length := by rw [← hl]; exact (List.getElem?_eq_some_iff.1 hi).1
    obtain ⟨b, hb, b1, b2, -⟩ := hg.keep i _ (List.getElem?_eq_getElem hi')
    obtain rfl := Option.some.inj (hi.symm.trans hb)
    rw [b1]
    exact h.inside _ (List.getElem_mem hi') (by rw [← b2]; exact h0)
  · obtain ⟨q', hq', h1, h2⟩ := h.keep q hq
    obtain ⟨i, hi⟩ := List.getElem?_of_mem hq'
    obtain ⟨b, hb, b1, b2, -⟩ := hg.keep i _ hi
    exact ⟨b, List.mem_of_getElem? hb, b1.trans h1, b2.trans h2⟩
  · have hi' : i < all.length := by rw [← hl]; exact (List.getElem?_eq_some_iff.1 hb).1
    obtain ⟨b', hb', b1, -⟩ := hg.keep i _ (List.getElem?_eq_getElem hi')
    obtain rfl := Option.some.inj (hb.symm.trans hb')
    rw [b1]
    exact h.far i _ hi (List.getElem?_eq_getElem hi')

/-- The rounds end: `m` is the number of rounds with new seeds for which there is room, `f` bounds the front. -/
theorem fenced_rounds {F : Features} {FT : FeatureTrees} {L rmax r : ℝ} (hP : FrontParams F FT L rmax) (hr : 0 < r) (hm : r ≤ rmax) (hz : ∀ q ∈ F.sizing, r ≤ q.size) {seeds : List SeedRec} {D : Set (Nat → ℝ)}
    (hD : Fenced F L seeds D) {M : Nat} (hM : ∀ ps : List (Nat → ℝ), (∀ p ∈ ps, p ∈ D) → ps.Pairwise (fun a b => r ≤ euclid 3 a b) → ps.length ≤ M) (m f : Nat) :
    ∃ K, ∀ (ρ : ℝ → ℝ), Monotone ρ → (∀ n : Nat, ρ (n : ℝ) = n) → ∀ (threads : Nat) (inputs : List RoundInput), (∀ inp ∈ inputs, inp.OK) → K ≤ inputs.length → ∀ (s : FrontState), FrontInv s → s.front ≠ [] → s.front.length ≤ f →
      FencedState D seeds r s.all → ∀ picked : List (Nat → ℝ), picked.Pairwise (fun a b => r ≤ euclid 3 a b) → (∀ p ∈ picked, p ∈ D ∧ ∃ a ∈ s.all, a.x = p) → M + 1 ≤ m + picked.length →
      ∃ s' N, (∀ lf, N ≤ lf → frontRounds ρ F FT L rmax lf threads inputs s = some (s', true)) ∧ FrontInv s' ∧ FencedState D seeds r s'.all ∧ s'.interior = [] := by
  induction m generalizing f with
  | zero =>
    refine ⟨0, fun ρ _ _ threads inputs _ _ s _ _ _ _ picked h1 h2 h3 => ?_⟩
    have := hM picked (fun p hp => (h2 p hp).1) h1
    omega
  | succ m ihm =>
    induction f with
    | zero => exact ⟨0, fun ρ _ _ threads inputs _ _ s _ hne hf => absurd (List.length_eq_zero_iff.1 (Nat.le_zero.1 hf)) hne⟩
    | succ f ihf =>
      obtain ⟨K1, hK1⟩ := ihf
      obtain ⟨K2, hK2⟩ := ihm (21 * (f + 1))
      refine ⟨max K1 K2 + 1, fun ρ hmono hρ threads inputs hi hlen s hs hne hf hS picked h1 h2 h3 => ?_⟩
      obtain ⟨inp, is, rfl⟩ : ∃ inp is, inputs = inp :: is := by
        cases inputs with
        | nil => simp at hlen
        | cons a b => exact ⟨a, b, rfl⟩
      simp only [List.length_cons] at hlen
      obtain ⟨s', b, new, N, g1, g2, -, g4, g5, g6, g7, g8, g9, -, g11, g12⟩ := frontRound_spec hmono hρ hP threads (hi inp (by simp)) hs hne
      have hnew : FencedState D seeds r (s.all ++ new) := by
        refine ⟨fun a ha h0 => ?_, fun a ha => ?_, fun q hq => ?_, by rw [List.length_append]; exact le_add_right hS.length, fun i b hi hb a ha => ?_⟩
        · rcases List.mem_append.1 ha with ha | ha
          · exact hS.inside a ha h0
          · obtain ⟨i, -, t, ht, t0, hn⟩ := g6 a ha
            exact hn.fenced hP.ok.L1 hD hS (List.mem_of_getElem? ht) t0
        · rcases List.mem_append.1 ha with ha | ha
          · exact hS.least a ha
          · obtain ⟨i, -, t, ht, t0, hn⟩ := g6 a ha
            exact hn.least.least hP.ok.L0 hS.least hm hz
        · obtain ⟨q', hq', e⟩ := hS.keep q hq
          exact ⟨q', List.mem_append_left _ hq', e⟩
        · by_cases hlt : i < s.all.length
          · rw [List.getElem?_append_left hlt] at hb
            exact hS.far i b hi hb a ha
          · rw [List.getElem?_append_right (by omega)] at hb
            obtain ⟨j, -, t, ht, t0, hn⟩ := g6 b (List.mem_of_getElem? hb)
            obtain ⟨q', hq', e, -⟩ := hS.keep a ha
            rw [← e]
            exact hn.apart hP.ok.L0 hP.ok.L1 hS.least hr.le (List.mem_of_getElem? ht) hq'
      have hS' : FencedState D seeds r s'.all := hnew.grown hP.ok.L0 hm hz g7 (by rw [List.length_append]; exact g8)
      cases b with
      | true => exact ⟨s', N, fun lf hl => by unfold frontRounds; rw [g1 lf hl], g2, hS', g4 rfl⟩
      | false =>
        obtain ⟨k1, k2⟩ := g12 rfl
        have hkeep : ∀ a ∈ s.all ++ new, ∃ b ∈ s'.all, b.x = a.x := fun a ha => by
          obtain ⟨i, hi'⟩ := List.getElem?_of_mem ha
          obtain ⟨b, hb, hx, -⟩ := g7.keep i a hi'
          exact ⟨b, List.mem_of_getElem? hb, hx⟩
        have hpick : ∀ p ∈ picked, p ∈ D ∧ ∃ a ∈ s'.all, a.x = p := fun p hp => by
          obtain ⟨hpD, a, ha, hx⟩ := h2 p hp
          obtain ⟨b, hb, hbx⟩ := hkeep a (List.mem_append_left _ ha)
          exact ⟨hpD, b, hb, hbx.trans hx⟩
        have next : ∃ s2 N, (∀ lf, N ≤ lf → frontRounds ρ F FT L rmax lf threads is s' = some (s2, true)) ∧ FrontInv s2 ∧ FencedState D seeds r s2.all ∧ s2.interior = [] := by
          cases hn : new with
          | nil => exact hK1 ρ hmono hρ threads is (fun i h => hi i (by simp [h])) (by omega) s' g2 (g5 rfl) (by have := k2 hn; omega) hS' picked h1 hpick h3
          | cons p ps =>
            have hp : p ∈ new := by rw [hn]; simp
            obtain ⟨i, -, t, ht, t0, hns⟩ := g6 p hp
            obtain ⟨b, hb, hbx⟩ := hkeep p (List.mem_append_right _ hp)
            refine hK2 ρ hmono hρ threads is (fun i h => hi i (by simp [h])) (by omega) s' g2 (g5 rfl) (by omega) hS' (p.x :: picked) ?_ ?_ (by simp only [List.length_cons]; omega)
            · refine List.pairwise_cons.2 ⟨fun x hx => ?_, h1⟩
              obtain ⟨-, a, ha, rfl⟩ := h2 x hx
              exact hns.apart hP.ok.L0 hP.ok.L1 hS.least hr.le (List.mem_of_getElem? ht) ha
            · intro x hx
              rcases List.mem_cons.1 hx with rfl | hx
              · exact ⟨hns.fenced hP.ok.L1 hD hS (List.mem_of_getElem? ht) t0, b, hb, hbx⟩
              · exact hpick x hx
        obtain ⟨s2, N2, e1, e2, e3, e4⟩ := next
        refine ⟨s2, max N N2, fun lf hl => ?_, e2, e3, e4⟩
        unfold frontRounds
        rw [g1 lf (by omega)]
        exact e1 lf (by omega)

/-- **C111**: the seeding of the interior ends.  When the outer seeds fence the inside and no size is below `r`, which is not zero, there is a number of rounds, the same for all random numbers and numbers of
threads, after which the loop has ended.  Then no seed is beyond the fence, no size is below `r`, and each new seed keeps the distance `r` from the given ones. -/
theorem C111_seeding_ends (F : Features) {L rmax : ℝ} (hF : F.OK L) (hsz : SizingOK F) (hc : F.corners.length ≤ F.surface.length) (hs : F.sizing.length ≤ F.surface.length) {r : ℝ} (hr : 0 < r)
    (hmax : r ≤ rmax) (hsp : ∀ q ∈ F.sizing, r ≤ q.size) (seeds : List SeedRec) (h0 : ∀ a ∈ seeds, r ≤ a.size) (hin : ∃ a ∈ seeds, a.region ≠ 0) {D : Set (Nat → ℝ)} (hD : Fenced F L seeds D) :
    ∃ K, ∀ (ρ : ℝ → ℝ), Monotone ρ → (∀ n : Nat, ρ (n : ℝ) = n) → ∀ (threads : Nat) (inputs : List RoundInput), (∀ inp ∈ inputs, inp.OK) → K ≤ inputs.length →
      ∃ out N, (∀ lf, N ≤ lf → generateInterior ρ F L rmax lf threads inputs seeds = some (some out)) ∧ (∀ b ∈ out, (b.region ≠ 0 → b.x ∈ D) ∧ r ≤ b.size) ∧
        ∀ (i : Nat) (b : SeedRec), seeds.length ≤ i → out[i]? = some b → ∀ a ∈ seeds, r ≤ euclid 3 b.x a.x := by
  have hne : seeds ≠ [] := by rintro rfl; simp at hin
  obtain ⟨T, eT, hT⟩ := meshTree_spec hne (le_refl seeds.length)
  obtain ⟨FT, eF, hFT⟩ := C62_buffers_partial F hc hs
  obtain ⟨B, hB⟩ := hD.bounded
  obtain ⟨M, hM⟩ := packing hr B
  have hP : FrontParams F FT L rmax := ⟨hF, hFT, hsz, hr.le.trans hmax⟩
  have hS0 : FencedState D seeds r seeds := ⟨hD.inside, h0, fun q hq => ⟨q, hq, rfl, rfl⟩, le_refl _, fun i b hi hb => by have := (List.getElem?_eq_some_iff.1 hb).1; omega⟩
  obtain ⟨ys, N1, a1, a2, a3, a4, a5⟩ := lipGrown (F := F) (rmax := rmax) hF.L0 hT fun a ha => hr.le.trans (h0 a ha)
  have hS1 := hS0.grown hF.L0 hmax hsp a3 a2
  obtain ⟨K, hK⟩ := fenced_rounds hP hr hmax hsp hD (M := M) (fun ps h1 h2 => hM ps (fun p hp => hB p (h1 p hp)) h2) (M + 1) (startFront ys 0).length
  refine ⟨K, fun ρ hmono hρ threads inputs hi hlen => ?_⟩
  have hyne : ys ≠ [] := by rintro rfl; simp at a2; exact hne (List.length_eq_zero_iff.1 a2.symm)
  have hinv : FrontInv ⟨ys, T, [], startFront ys 0, ys.length⟩ := by
    refine ⟨hyne, a4, by simpa using a5, fun i hi' => ?_⟩
    obtain ⟨-, a, ha, ha0⟩ := startFront_mem.1 hi'
    exact ⟨a, by simpa using ha, ha0⟩
  have hfne : startFront ys 0 ≠ [] := by
    obtain ⟨a, ha, ha0⟩ := hin
    obtain ⟨i, hi'⟩ := List.getElem?_of_mem ha
    obtain ⟨b, hb, hb0⟩ := a3.region hi' ha0
    exact List.ne_nil_of_mem (startFront_mem.2 ⟨Nat.zero_le _, b, by simpa using hb, hb0⟩ : i ∈ startFront ys 0)
  obtain ⟨s', N2, b1, b2, b3, b4⟩ := hK ρ hmono hρ threads inputs hi hlen _ hinv hfne (le_refl _) (by simpa [FrontState.all] using hS1) [] .nil (by simp) (by simp)
  have h5 : ∀ a ∈ s'.seeds, 0 ≤ a.size := fun a ha => b2.nonneg a (by simp [ha])
  obtain ⟨zs, N3, c1, c2, c3, -, -⟩ := lipGrown (F := F) (rmax := rmax) hF.L0 b2.tree h5
  have hS2 : FencedState D seeds r zs := by
    unfold FrontState.all at b3
    rw [b4, List.append_nil] at b3
    exact b3.grown hF.L0 hmax hsp c3 c2
  refine ⟨zs, max N1 (max N2 N3), fun lf hf => ?_, fun b hb => ⟨hS2.inside b hb, hS2.least b hb⟩, hS2.far⟩
  unfold generateInterior
  simp only [eT, eF, a1 lf (by omega), b1 lf (by omega), c1 lf (by omega), Option.map_some]

end VoroCrust
