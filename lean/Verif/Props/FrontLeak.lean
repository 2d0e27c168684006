import Verif.Props.FrontEnds
import Verif.Props.CullThreshold

/-! C111, the other side: without a fence the seeding of the interior goes on for ever. -/

namespace VoroCrust

/-- A dart that is outside all spheres looked at, and closer to its own seed than to every seed of another region, is accepted. -/
theorem throwDart_accepts {F : Features} {FT : FeatureTrees} {L rmax : ℝ} (hL : 0 ≤ L) (hr : 0 ≤ rmax) (hFT : FT.Hold F) (hS : SizingOK F) {seeds interior : List SeedRec} {idx : Nat} {s : SeedRec}
    (hs : (seeds ++ interior)[idx]? = some s) (h0 : ∀ a ∈ seeds ++ interior, 0 ≤ a.size) {nb : List (Option Nat × SeedRec)} (hnb : TagsOK (seeds ++ interior) nb) (dir : Nat → ℝ) (u : ℝ)
    (h1 : ∀ q ∈ nb, q.2.size * q.2.size ≤ distSq3 (fun d => s.x d + u * s.size * dir d) q.2.x)
    (h2 : ∀ a ∈ seeds ++ interior, a.region ≠ s.region → distSq3 (fun d => s.x d + u * s.size * dir d) s.x < distSq3 (fun d => s.x d + u * s.size * dir d) a.x) :
    ∃ p, throwDart F FT L rmax seeds interior idx s nb [] dir u = some (some p) := by
  obtain ⟨g, c', q, e, hq, hle, hg, -⟩ := scanSpheres_spec (fun d => s.x d + u * s.size * dir d) nb hnb hs
  have hqm := List.mem_of_getElem? hq
  have hreg : s.region = q.region := by
    by_contra hne
    have := h2 q hqm (fun h => hne h.symm)
    linarith
  obtain ⟨z, ez, -⟩ := sizingBound_spec hFT.sizing hS (fun d => s.x d + u * s.size * dir d)
    (sz := min (q.size + L * Real.sqrt (distSq3 (fun d => s.x d + u * s.size * dir d) q.x)) rmax) (le_min (add_nonneg (h0 q hqm) (mul_nonneg hL (Real.sqrt_nonneg _))) hr)
  unfold throwDart
  simp only [e, frontSphere_eq, hq]
  rw [if_pos ⟨hg.2 h1, by simp, hreg⟩, ez]
  exact ⟨_, rfl⟩

theorem endRound_front {L : ℝ} {lf cap : Nat} {s s' : FrontState} {inactive : List Nat} {new : List SeedRec} {b : Bool} (h : endRound L lf cap s inactive new = some (s', b)) (hn : new ≠ []) :
    s'.front = inactive ++ (List.range new.length).map fun i => s.seeds.length + s.interior.length + i := by
  have hl : ¬ new.length = 0 := fun h => hn (List.length_eq_zero_iff.1 h)
  unfold endRound at h
  rw [if_neg (fun h => hl h.1), if_neg hl] at h
  simp only at h
  split_ifs at h
  · obtain ⟨rfl, -⟩ := Prod.mk.inj (Option.some.inj h)
    rfl
  · split at h
    · simp at h
    · split_ifs at h
      · split at h
        · simp at h
        · obtain ⟨rfl, -⟩ := Prod.mk.inj (Option.some.inj h)
          rfl
      · obtain ⟨rfl, -⟩ := Prod.mk.inj (Option.some.inj h)
        rfl

/-! ## A surface that is open on one side -/

namespace Leak

/-- One surface sphere. -/
noncomputable def feats : Features := ⟨[⟨ptN (-3 / 2) 0 0, 1, 0⟩], [], [], []⟩

/-- Place of seed `i`: the outer one, the inner one, and the new ones. -/
noncomputable def place (i : Nat) : Nat → ℝ := ptN (if i = 0 then -3 else i - 1) 0 0

noncomputable def pair : List SeedRec := [⟨place 0, 1, 0⟩, ⟨place 1, 1, 1⟩]

/-- All darts go away from the surface. -/
noncomputable def input : RoundInput := ⟨fun _ => 0, fun _ _ => ptN 1 0 0, fun _ _ => 1⟩

theorem input_ok : input.OK := ⟨fun _ => by norm_num [input], fun _ _ => by norm_num [input, ptN], fun _ _ => by norm_num [input]⟩

theorem ok : feats.OK 0 := ⟨le_refl _, by norm_num, ⟨by simp [feats], by simp [feats]⟩, ⟨by simp [feats], by simp [feats]⟩, ⟨by simp [feats], by simp [feats]⟩⟩

/-- `n` seeds in a row behind the two given ones, the last of which is the front. -/
structure Row (n : Nat) (s : FrontState) : Prop where
  inv : FrontInv s
  length : s.all.length = n + 2
  front : s.front = [n + 1]
  each : ∀ (i : Nat) (b : SeedRec), s.all[i]? = some b → b.x = place i ∧ b.size = 1 ∧ b.region = if i = 0 then 0 else 1

theorem place_next (n : Nat) : (fun d => place (n + 1) d + 1 * 1 * ptN 1 0 0 d) = place (n + 2) := by
  funext d
  simp only [place, ptN, if_neg (Nat.succ_ne_zero _)]
  split_ifs <;> (push_cast; ring)

theorem place_sq (i j : Nat) : distSq3 (place i) (place j) = ((if i = 0 then -3 else (i : ℝ) - 1) - (if j = 0 then -3 else (j : ℝ) - 1)) ^ 2 := by
  simp [distSq3, place, ptN]
  try ring

theorem place_far {n i : Nat} (hi : i < n + 2) : 1 ≤ distSq3 (place (n + 2)) (place i) ∧ (i = 0 → 1 < distSq3 (place (n + 2)) (place i)) := by
  rw [place_sq, if_neg (by omega)]
  by_cases h : i = 0
  · rw [if_pos h]
    push_cast
    have : (0 : ℝ) ≤ n := Nat.cast_nonneg n
    exact ⟨by nlinarith, fun _ => by nlinarith⟩
  · rw [if_neg h]
    have : (i : ℝ) + 1 ≤ n + 2 := by exact_mod_cast hi
    push_cast
    exact ⟨by nlinarith, fun h' => absurd h' h⟩

theorem row_step {ρ : ℝ → ℝ} (hmono : Monotone ρ) (hρ : ∀ n : Nat, ρ (n : ℝ) = n) {FT : FeatureTrees} (hFT : FT.Hold feats) (threads : Nat) {n : Nat} {s : FrontState} (h : Row n s) :
    ∃ s' N, (∀ lf, N ≤ lf → frontRound ρ feats FT 0 1 lf threads input s = some (s', false)) ∧ Row (n + 1) s' := by
  have hP : FrontParams feats FT 0 1 := ⟨ok, hFT, by intro q hq; simp [feats] at hq, by norm_num⟩
  have hs := h.inv
  obtain ⟨fr, e1, hperm⟩ := shuffledFront_spec hmono hρ (draw := fun _ => 0) (fun _ => by norm_num) s.front
  obtain ⟨fs, e2, h2⟩ := frontRecs_spec (seeds := s.seeds) (interior := s.interior) fr fun i hi' => by
    obtain ⟨a, ha, -⟩ := hs.front i (hperm.mem_iff.1 hi'); exact ⟨a, ha⟩
  obtain rfl : fr = [n + 1] := by rw [h.front] at hperm; exact List.perm_singleton.1 hperm
  have hlen : 0 < fs.length := by rw [← h2.length_eq]; simp
  obtain ⟨act, e3, -, hact0⟩ := activate_spec (L := 0) (cap := 100 * threads) (fs := fun i => fs.getD i ⟨fun _ => 0, 0, 0⟩) hlen
  have esp : splitFront act [n + 1] 0 = ([n + 1], []) := by simp [splitFront, hact0]
  obtain ⟨a, ha⟩ : ∃ a, (s.seeds ++ s.interior)[n + 1]? = some a := ⟨_, List.getElem?_eq_getElem (by have := h.length; unfold FrontState.all at this; omega)⟩
  obtain ⟨ax, a1, areg⟩ := h.each _ _ ha
  rw [if_neg (by omega)] at areg
  have hdart : (fun d => a.x d + 1 * a.size * ptN 1 0 0 d) = place (n + 2) := by rw [ax, a1]; exact place_next n
  obtain ⟨nb, enb, htag, -⟩ := dartSpheres_spec ok hFT hs.tree (interior := s.interior) (s := a) (by rw [a1]; norm_num)
  have hidx : ∀ (i : Nat) (q : SeedRec), (s.seeds ++ s.interior)[i]? = some q → i < n + 2 := fun i q hq => by
    have := (List.getElem?_eq_some_iff.1 hq).1
    have h3 := h.length
    unfold FrontState.all at h3
    omega
  have hnb : ∀ q ∈ nb, q.2.size * q.2.size ≤ distSq3 (place (n + 2)) q.2.x := by
    rintro ⟨t, q⟩ hq
    cases t with
    | some i =>
      have := htag _ _ hq
      obtain ⟨b1, b2, -⟩ := h.each _ _ this
      have := (place_far (hidx _ _ this)).1
      simp only [b1, b2]
      linarith
    | none =>
      have := dartSpheres_mem enb hq
      simp only [feats, List.mem_singleton, List.not_mem_nil, or_false] at this
      subst this
      have : (0 : ℝ) ≤ n := Nat.cast_nonneg n
      simp [distSq3, place, ptN]
      nlinarith
  obtain ⟨p, ep⟩ := throwDart_accepts (F := feats) (L := 0) (rmax := 1) (le_refl _) (by norm_num) hFT hP.sizing ha hs.nonneg htag (ptN 1 0 0) 1 (by rw [hdart]; exact hnb) (by
    intro q hq hne
    obtain ⟨i, hi⟩ := List.getElem?_of_mem hq
    obtain ⟨b1, b2, b3⟩ := h.each _ _ hi
    have hi0 : i = 0 := by
      by_contra h0
      rw [if_neg h0] at b3
      rw [b3, areg] at hne
      exact hne rfl
    have := (place_far (hidx _ _ hi)).2 hi0
    rw [hdart, b1, ax]
    refine lt_of_le_of_lt ?_ this
    rw [place_sq, if_neg (by omega), if_neg (by omega)]
    push_cast
    nlinarith)
  obtain ⟨v, ev, hv, -⟩ := throwDart_spec (F := feats) (L := 0) (rmax := 1) (le_refl _) (by norm_num) hFT hP.sizing ha hs.nonneg htag [] (ptN 1 0 0) 1
  obtain rfl := Option.some.inj (ep.symm.trans ev)
  obtain ⟨p1, pok, -⟩ := hv p rfl
  rw [hdart] at p1
  have least : ∀ {xs : List SeedRec} {b : SeedRec}, (∀ a ∈ xs, 1 ≤ a.size) → BigEnough feats 0 1 xs b → 1 ≤ b.size := by
    rintro xs b hx (⟨c, hc, hb⟩ | hb | ⟨q, hq, -⟩)
    · have := hx c hc
      linarith
    · exact hb
    · simp [feats] at hq
  have hone : ∀ a ∈ s.seeds ++ s.interior, 1 ≤ a.size := fun c hc => by
    obtain ⟨i, hi⟩ := List.getElem?_of_mem hc
    exact (h.each _ _ hi).2.1.ge
  have p2 : p.size = 1 := le_antisymm pok.max (least hone pok.least)
  obtain ⟨ps, eps, hps, -⟩ := throwDarts_spec (F := feats) (L := 0) (rmax := 1) (le_refl _) (by norm_num) hFT hP.sizing ha hs.nonneg htag
    ((List.range 19).map fun d => (input.dir 0 (d + 1), input.fac 0 (d + 1))) [p]
  have hps0 : ps = [] := by
    by_contra hne
    obtain ⟨q, hq⟩ := List.exists_mem_of_ne_nil _ hne
    obtain ⟨-, q2, d, hd, q3⟩ := hps q hq
    obtain ⟨k, -, rfl⟩ := List.mem_map.1 hd
    simp only [input] at q3
    rw [hdart] at q3
    have := q2 p (by simp)
    rw [q3, p1, p2, place_sq] at this
    norm_num at this
  rw [hps0] at eps
  have e4 : newSpheres feats FT 0 1 s.tree s.seeds s.interior input [n + 1] 0 = some [[p]] := by
    have hd : (List.range 20).map (fun d => (input.dir 0 d, input.fac 0 d)) = (ptN 1 0 0, 1) :: (List.range 19).map fun d => (input.dir 0 (d + 1), input.fac 0 (d + 1)) := by
      rw [List.range_succ_eq_map, List.map_cons, List.map_map]
      rfl
    unfold newSpheres
    simp only [frontSphere_eq, ha, enb, hd]
    unfold throwDarts
    simp only [ep, List.nil_append, eps, newSpheres, List.append_nil]
  have hmem : ∀ i ∈ [n + 1], ∃ a, (s.seeds ++ s.interior)[i]? = some a ∧ a.region ≠ 0 := fun i hi => by
    obtain rfl : i = n + 1 := by simpa using hi
    exact ⟨a, ha, by rw [areg]; norm_num⟩
  obtain ⟨new, e4', hnl⟩ := newSpheres_spec hP hs.tree (interior := s.interior) hs.nonneg input_ok [n + 1] (fun i hi => by obtain ⟨a, ha, -⟩ := hmem i hi; exact ⟨a, ha⟩) 0
  obtain rfl := Option.some.inj (e4'.symm.trans e4)
  have hnl' : NewList feats 0 1 s.front (s.seeds ++ s.interior) [[p]].flatten := fun q hq => by
    obtain ⟨i, g1, g2⟩ := flatten_new hmem hnl q hq
    exact ⟨i, by rw [h.front]; exact g1, g2⟩
  obtain ⟨s', b, N, g1, g2, g3, -, g5, -, g7, -⟩ := endRound_spec (le_refl 0) (1000 * threads) hs (inactive := []) (by simp) hnl'
  have hb : b = false := by
    cases b with
    | false => rfl
    | true => have := (g5.1 rfl).1; simp at this
  subst hb
  have hall : (s.seeds ++ s.interior).length = n + 2 := h.length
  refine ⟨s', N, fun lf hf => ?_, g2, ?_, ?_, fun i b hb => ?_⟩
  · unfold frontRound
    simp only [show input.draw = fun _ => 0 from rfl, e1, e2, e3, esp, e4]
    exact g1 lf hf
  · show (s'.seeds ++ s'.interior).length = _
    rw [g7, hall]
    simp
  · rw [endRound_front (g1 N (le_refl _)) (by simp)]
    simp only [List.length_append] at hall
    simp [hall]
  · have hb' : (s'.seeds ++ s'.interior)[i]? = some b := hb
    have hlt := (List.getElem?_eq_some_iff.1 hb').1
    rw [g7, hall] at hlt
    simp only [List.flatten_cons, List.flatten_nil, List.append_nil, List.length_singleton] at hlt g3
    have hold : ∃ c : SeedRec, (s.seeds ++ s.interior ++ [p])[i]? = some c ∧ c.x = place i ∧ c.size = 1 ∧ c.region = if i = 0 then 0 else 1 := by
      by_cases hi : i < n + 2
      · have hi' : i < (s.seeds ++ s.interior).length := by omega
        refine ⟨(s.seeds ++ s.interior)[i], ?_, h.each _ _ (List.getElem?_eq_getElem hi')⟩
        rw [List.getElem?_append_left hi', List.getElem?_eq_getElem hi']
      · obtain rfl : i = n + 2 := by omega
        refine ⟨p, ?_, p1, p2, ?_⟩
        · rw [List.getElem?_append_right (by omega), hall]
          simp
        · rw [if_neg (by omega), pok.region, areg]
    obtain ⟨c, hc, c1, c2, c3⟩ := hold
    obtain ⟨b', hb2, x1, x2, x3⟩ := g3.keep i c hc
    obtain rfl := Option.some.inj (hb'.symm.trans hb2)
    refine ⟨x1.trans c1, le_antisymm (x3.trans c2.le) ?_, x2.trans c3⟩
    refine least (fun c hc => ?_) (g3.least b (List.mem_of_getElem? hb'))
    rcases List.mem_append.1 hc with hc | hc
    · exact hone c hc
    · obtain rfl : c = p := by simpa using hc
      exact p2.ge

theorem row_rounds {ρ : ℝ → ℝ} (hmono : Monotone ρ) (hρ : ∀ n : Nat, ρ (n : ℝ) = n) {FT : FeatureTrees} (hFT : FT.Hold feats) (threads : Nat) (k : Nat) {n : Nat} {s : FrontState} (h : Row n s) :
    ∃ s' N, (∀ lf, N ≤ lf → frontRounds ρ feats FT 0 1 lf threads (List.replicate k input) s = some (s', false)) ∧ Row (n + k) s' := by
  induction k generalizing n s with
  | zero => exact ⟨s, 0, fun _ _ => rfl, h⟩
  | succ k ih =>
    obtain ⟨s1, N1, e1, h1⟩ := row_step hmono hρ hFT threads h
    obtain ⟨s2, N2, e2, h2⟩ := ih h1
    refine ⟨s2, max N1 N2, fun lf hf => ?_, by rw [show n + (k + 1) = n + 1 + k by omega]; exact h2⟩
    rw [List.replicate_succ]
    unfold frontRounds
    rw [e1 lf (by omega)]
    exact e2 lf (by omega)

end Leak

open Leak in
/-- **C111**: the condition on the outer seeds is needed.  One outer and one inner seed on the two sides of a surface sphere meet all other conditions of `C111_seeding_ends`, but when the random numbers always
give a dart away from the surface the loop does not end, after any number of rounds and with any number of threads. -/
theorem C111_open_never_ends : feats.OK 0 ∧ SizingOK feats ∧ (∀ a ∈ pair, a.size = 1) ∧ (∃ a ∈ pair, a.region = 0) ∧ (∃ a ∈ pair, a.region ≠ 0) ∧
    (∀ q ∈ feats.surface, ∀ a ∈ pair, q.size ≤ euclid 3 a.x q.x) ∧ input.OK ∧
    ∀ (ρ : ℝ → ℝ), Monotone ρ → (∀ n : Nat, ρ (n : ℝ) = n) → ∀ threads k : Nat, ∃ N, ∀ lf, N ≤ lf → generateInterior ρ feats 0 1 lf threads (List.replicate k input) pair = some none := by
  have hsz : SizingOK feats := by intro q hq; simp [feats] at hq
  have hone : ∀ a ∈ pair, a.size = 1 := by simp [pair]
  refine ⟨ok, hsz, hone, ⟨_, List.mem_cons_self, rfl⟩, ⟨⟨place 1, 1, 1⟩, by simp [pair], by simp⟩, ?_, input_ok, fun ρ hmono hρ threads k => ?_⟩
  · intro q hq a ha
    simp only [feats, List.mem_singleton] at hq
    subst hq
    simp only [pair, List.mem_cons, List.not_mem_nil, or_false] at ha
    refine le_of_sq_le_sq ?_ (euclid_nonneg _ _ _)
    rw [euclid3_sq]
    rcases ha with rfl | rfl <;> norm_num [place, ptN]
  · obtain ⟨T, eT, hT⟩ := meshTree_spec (xs := pair) (by simp [pair]) (le_refl _)
    obtain ⟨FT, eF, hFT⟩ := C62_buffers_partial feats (by simp [feats]) (by simp [feats])
    obtain ⟨ys, N1, a1, a2, a3, a4, a5⟩ := lipGrown (F := feats) (rmax := 1) (le_refl 0) hT (fun a ha => by rw [hone a ha]; norm_num)
    have hrow : Row 0 ⟨ys, T, [], startFront ys 0, ys.length⟩ := by
      obtain ⟨y0, h0, x0, r0, s0⟩ := a3.keep 0 _ rfl
      obtain ⟨y1, h1, x1, r1, s1⟩ := a3.keep 1 _ rfl
      have hl : ys.length = 2 := a2
      obtain ⟨z0, z1, rfl⟩ := List.length_eq_two.1 hl
      obtain rfl : z0 = y0 := by simpa using h0
      obtain rfl : z1 = y1 := by simpa using h1
      have hst : startFront [z0, z1] 0 = [1] := by simp [startFront, r0, r1]
      have least : ∀ b ∈ [z0, z1], 1 ≤ b.size := fun b hb => by
        rcases a3.least b hb with ⟨c, hc, h⟩ | h | ⟨q, hq, -⟩
        · have := hone c hc
          linarith
        · exact h
        · simp [feats] at hq
      refine ⟨⟨by simp, a4, by simpa using a5, ?_⟩, by simp [FrontState.all], by simpa using hst, fun i b hb => ?_⟩
      · intro i hi
        rw [hst] at hi
        obtain rfl : i = 1 := by simpa using hi
        exact ⟨z1, by simp, by rw [r1]; simp⟩
      · match i, hb with
        | 0, hb =>
          obtain rfl : z0 = b := by simpa [FrontState.all] using hb
          exact ⟨x0, le_antisymm s0 (least _ (by simp)), r0⟩
        | 1, hb =>
          obtain rfl : z1 = b := by simpa [FrontState.all] using hb
          exact ⟨x1, le_antisymm s1 (least _ (by simp)), r1⟩
        | i + 2, hb => simp [FrontState.all] at hb
    obtain ⟨s', N2, b1, -⟩ := row_rounds hmono hρ hFT threads k hrow
    refine ⟨max N1 N2, fun lf hf => ?_⟩
    unfold generateInterior
    simp only [eT, eF, a1 lf (by omega), b1 lf (by omega)]

end VoroCrust
