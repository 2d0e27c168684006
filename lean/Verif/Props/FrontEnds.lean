import Verif.Props.InteriorRun

/-!
# C98, continued: runs that end, and what goes wrong in them
-/

namespace VoroCrust

/-! ## Fronts that end -/

/-- A dart of the seed `a` in direction `v`, one radius away, is inside a feature sphere. -/
def Blocks (F : Features) (a : SeedRec) (v : Nat → ℝ) : Prop :=
  v 0 ^ 2 + v 1 ^ 2 + v 2 ^ 2 = 1 ∧ ∃ q, (q ∈ F.surface ∨ q ∈ F.edges ∨ q ∈ F.corners) ∧ euclid 3 (fun d => a.x d + 1 * a.size * v d) q.x < q.size

theorem throwDarts_blocked {F : Features} {FT : FeatureTrees} {L rmax : ℝ} (hP : FrontParams F FT L rmax) {T : MTree} {seeds interior : List SeedRec} (hT : T.Holds seeds)
    (h0 : ∀ a ∈ seeds ++ interior, 0 ≤ a.size) {i : Nat} {s : SeedRec} (hs : (seeds ++ interior)[i]? = some s) {v : Nat → ℝ} (hv : Blocks F s v) (ds : List ((Nat → ℝ) × ℝ))
    (hds : ∀ d ∈ ds, d = (v, 1)) : ∃ nb, dartSpheres F FT L T seeds interior s = some nb ∧ throwDarts F FT L rmax seeds interior i s nb ds [] = some [] := by
  have hs0 := h0 s (List.mem_of_getElem? hs)
  obtain ⟨nb, enb, htag, -, hcov⟩ := dartSpheres_spec hP.ok hP.hold hT (interior := interior) hs0
  obtain ⟨ps, ep, h1, -⟩ := throwDarts_spec hP.ok.L0 hP.rmax hP.hold hP.sizing hs h0 htag ds []
  refine ⟨nb, enb, ?_⟩
  cases ps with
  | nil => simpa using ep
  | cons p ps =>
    exfalso
    obtain ⟨g, -, d, hd, hx⟩ := h1 p (by simp)
    obtain rfl := hds d hd
    simp only at hx
    obtain ⟨hu, q, hq, hlt⟩ := hv
    rw [← hx] at hlt
    have hr : euclid 3 p.x s.x = 1 * s.size := by
      rw [hx]
      exact dart_dist _ _ hu (by linarith)
    have h3 := (hcov p.x (by rw [euclid_comm, hr]; linarith)).1 q hq hlt
    have hq0 : 0 ≤ q.size := by
      rcases hq with hq | hq | hq
      · exact hP.ok.surface.nonneg q hq
      · exact hP.ok.edges.nonneg q hq
      · exact hP.ok.corners.nonneg q hq
    exact absurd (sq_le_dist hq0 (g.free _ h3)) (not_le.2 hlt)

theorem newSpheres_blocked {F : Features} {FT : FeatureTrees} {L rmax : ℝ} (hP : FrontParams F FT L rmax) {T : MTree} {seeds interior : List SeedRec} (hT : T.Holds seeds)
    (h0 : ∀ a ∈ seeds ++ interior, 0 ≤ a.size) (dir : Nat → Nat → ℝ) {inp : RoundInput} (is : List Nat) (his : ∀ i ∈ is, ∃ s, (seeds ++ interior)[i]? = some s ∧ Blocks F s (dir i)) (k : Nat)
    (hd : ∀ j i, is[j]? = some i → ∀ d, inp.dir (k + j) d = dir i ∧ inp.fac (k + j) d = 1) :
    newSpheres F FT L rmax T seeds interior inp is k = some (is.map fun _ => []) := by
  induction is generalizing k with
  | nil => rfl
  | cons i is ih =>
    have e := ih (fun j hj => his j (by simp [hj])) (k + 1) fun j i hj d => by
      have := hd (j + 1) i (by simpa using hj) d
      rw [show k + 1 + j = k + (j + 1) by omega]
      exact this
    obtain ⟨s, hs, hv⟩ := his i (by simp)
    obtain ⟨nb, enb, et⟩ := throwDarts_blocked hP hT h0 hs hv ((List.range 20).map fun d => (inp.dir k d, inp.fac k d)) (by
      intro d hd'
      obtain ⟨e, -, rfl⟩ := List.mem_map.1 hd'
      obtain ⟨q1, q2⟩ := hd 0 i (by simp) e
      rw [Nat.add_zero] at q1 q2
      rw [q1, q2])
    unfold newSpheres
    simp only [frontSphere_eq, hs, enb, et, e, List.map_cons]

/-- Front seeds that are all blocked can vanish one after the other; nothing else changes. -/
theorem frontRounds_blocked {ρ : ℝ → ℝ} (hmono : Monotone ρ) (hρ : ∀ n : Nat, ρ (n : ℝ) = n) {F : Features} {FT : FeatureTrees} {L rmax : ℝ} (hP : FrontParams F FT L rmax) (threads : Nat)
    (n : Nat) {s : FrontState} (hs : FrontInv s) (hne : s.front ≠ []) (hn : s.front.length ≤ n) (hb : ∀ i ∈ s.front, ∃ a v, (s.seeds ++ s.interior)[i]? = some a ∧ Blocks F a v) :
    ∃ (inputs : List RoundInput) (s' : FrontState), (∀ inp ∈ inputs, inp.OK) ∧ (∀ lf, frontRounds ρ F FT L rmax lf threads inputs s = some (s', true)) ∧ s'.seeds = s.seeds ++ s.interior ∧
      s'.interior = [] ∧ s'.tree.Holds s'.seeds := by
  induction n generalizing s with
  | zero => exact absurd (List.length_eq_zero_iff.1 (by omega)) hne
  | succ n ih =>
    -- a direction for each seed
    have hdir : ∃ dir : Nat → Nat → ℝ, (∀ i, dir i 0 ^ 2 + dir i 1 ^ 2 + dir i 2 ^ 2 = 1) ∧ ∀ i ∈ s.front, ∃ a, (s.seeds ++ s.interior)[i]? = some a ∧ Blocks F a (dir i) := by
      classical
      refine ⟨fun i => if h : ∃ v a, (s.seeds ++ s.interior)[i]? = some a ∧ Blocks F a v then h.choose else ptN 1 0 0, fun i => ?_, fun i hi => ?_⟩
      · by_cases h : ∃ v a, (s.seeds ++ s.interior)[i]? = some a ∧ Blocks F a v
        · simp only [dif_pos h]
          obtain ⟨a, -, ha⟩ := h.choose_spec
          exact ha.1
        · simp only [dif_neg h]
          norm_num [ptN]
      · obtain ⟨a, v, ha, hv⟩ := hb i hi
        have h : ∃ v a, (s.seeds ++ s.interior)[i]? = some a ∧ Blocks F a v := ⟨v, a, ha, hv⟩
        simp only [dif_pos h]
        exact h.choose_spec
    obtain ⟨dir, hd1, hd2⟩ := hdir
    obtain ⟨fr, e1, hperm⟩ := shuffledFront_spec hmono hρ (draw := fun _ => 0) (fun _ => by norm_num) s.front
    obtain ⟨fs, e2, h2⟩ := frontRecs_spec (seeds := s.seeds) (interior := s.interior) fr fun i hi' => by
      obtain ⟨a, ha, -⟩ := hs.front i (hperm.mem_iff.1 hi'); exact ⟨a, ha⟩
    have hlen : 0 < fs.length := by
      rw [← h2.length_eq, hperm.length_eq]
      exact List.length_pos_iff.2 hne
    obtain ⟨act, e3, -, hact0⟩ := activate_spec (L := L) (cap := 100 * threads) (fs := fun i => fs.getD i ⟨fun _ => 0, 0, 0⟩) hlen
    have hsp := splitFront_perm act fr 0
    have hmem : ∀ i, i ∈ (splitFront act fr 0).1 ∨ i ∈ (splitFront act fr 0).2 → i ∈ s.front := fun i h => by
      rw [← hperm.mem_iff, ← hsp.mem_iff, List.mem_append]
      exact h
    have hshort : (splitFront act fr 0).2.length < s.front.length := by
      have hl := hsp.length_eq
      rw [List.length_append, hperm.length_eq] at hl
      have : 0 < (splitFront act fr 0).1.length := by
        cases fr with
        | nil => rw [← h2.length_eq] at hlen; simp at hlen
        | cons x xs => simp [splitFront, hact0]
      omega
    let inp : RoundInput := ⟨fun _ => 0, fun k _ => dir ((splitFront act fr 0).1.getD k 0), fun _ _ => 1⟩
    have hi : inp.OK := ⟨fun _ => ⟨le_refl _, by norm_num [inp]⟩, fun k d => hd1 _, fun _ _ => ⟨le_refl _, by norm_num [inp]⟩⟩
    have e4 := newSpheres_blocked hP hs.tree hs.nonneg dir (inp := inp) (splitFront act fr 0).1 (fun i h => hd2 i (hmem i (.inl h))) 0 (by
      intro j i hj d
      simp [inp, List.getD, hj])
    have eflat : ((splitFront act fr 0).1.map fun _ => ([] : List SeedRec)).flatten = [] := by simp
    have er : ∀ lf, frontRound ρ F FT L rmax lf threads inp s = endRound L lf (1000 * threads) s (splitFront act fr 0).2 [] := by
      intro lf
      unfold frontRound
      simp only [show inp.draw = fun _ => 0 from rfl, e1, e2, e3, e4, eflat]
    by_cases hin : (splitFront act fr 0).2 = []
    · by_cases hint : 0 < s.interior.length
      · obtain ⟨T, eT, hT⟩ := mergeSeeds_spec (extra := s.interior) hs.ne
        refine ⟨[inp], { s with seeds := s.seeds ++ s.interior, tree := T, interior := [], front := [] }, by simpa using hi, fun lf => ?_, rfl, rfl, hT⟩
        unfold frontRounds
        rw [er lf, hin]
        unfold endRound
        rw [if_pos ⟨rfl, rfl⟩, if_pos hint, eT]
      · have hint0 : s.interior = [] := List.length_eq_zero_iff.1 (by omega)
        refine ⟨[inp], { s with front := [] }, by simpa using hi, fun lf => ?_, by simp [hint0], hint0, hs.tree⟩
        unfold frontRounds
        rw [er lf, hin]
        unfold endRound
        rw [if_pos ⟨rfl, rfl⟩, if_neg hint]
    · have hs2 : FrontInv { s with front := (splitFront act fr 0).2 } := ⟨hs.ne, hs.tree, hs.nonneg, fun i hi => hs.front i (hmem i (.inr hi))⟩
      obtain ⟨inputs, s', g1, g2, g3⟩ := ih hs2 hin (by simp only; omega) fun i hi => hb i (hmem i (.inr hi))
      refine ⟨inp :: inputs, s', ?_, fun lf => ?_, g3⟩
      · intro i hi'
        rcases List.mem_cons.1 hi' with rfl | hi'
        · exact hi
        · exact g1 i hi'
      · have : frontRound ρ F FT L rmax lf threads inp s = some ({ s with front := (splitFront act fr 0).2 }, false) := by
          rw [er lf]
          unfold endRound
          rw [if_neg (fun h => hin (List.length_eq_zero_iff.1 h.2)), if_pos (List.length_nil)]
        unfold frontRounds
        rw [this]
        exact g2 lf

/-! ## Blocked seeds -/

/-- There is a direction in which the distance to `c` changes from `d` to `|d - r|`. -/
theorem toward (x c : Nat → ℝ) (r : ℝ) : ∃ v : Nat → ℝ, v 0 ^ 2 + v 1 ^ 2 + v 2 ^ 2 = 1 ∧ euclid 3 (fun d => x d + 1 * r * v d) c ^ 2 = (euclid 3 x c - r) ^ 2 := by
  by_cases h : euclid 3 x c = 0
  · refine ⟨ptN 1 0 0, by norm_num [ptN], ?_⟩
    have h2 := euclid3_sq x c
    rw [h] at h2
    have e0 : x 0 = c 0 := by nlinarith [sq_nonneg (x 0 - c 0), sq_nonneg (x 1 - c 1), sq_nonneg (x 2 - c 2)]
    have e1 : x 1 = c 1 := by nlinarith [sq_nonneg (x 0 - c 0), sq_nonneg (x 1 - c 1), sq_nonneg (x 2 - c 2)]
    have e2 : x 2 = c 2 := by nlinarith [sq_nonneg (x 0 - c 0), sq_nonneg (x 1 - c 1), sq_nonneg (x 2 - c 2)]
    rw [euclid3_sq, h, e0, e1, e2]
    norm_num [ptN]
  · have h2 := euclid3_sq x c
    refine ⟨fun d => (c d - x d) / euclid 3 x c, ?_, ?_⟩
    · rw [div_pow, div_pow, div_pow, ← add_div, ← add_div, div_eq_one_iff_eq (pow_ne_zero 2 h), h2]
      ring
    · rw [euclid3_sq]
      set D := euclid 3 x c with hD
      have e : ∀ k, x k + 1 * r * ((c k - x k) / D) - c k = (x k - c k) * (1 - r / D) := by intro k; field_simp; ring
      rw [e, e, e]
      have : ((x 0 - c 0) * (1 - r / D)) ^ 2 + ((x 1 - c 1) * (1 - r / D)) ^ 2 + ((x 2 - c 2) * (1 - r / D)) ^ 2 = D ^ 2 * (1 - r / D) ^ 2 := by rw [h2]; ring
      rw [this]
      field_simp

theorem blocked_of {F : Features} {a q : SeedRec} (hq : q ∈ F.surface ∨ q ∈ F.edges ∨ q ∈ F.corners) (h : |euclid 3 a.x q.x - a.size| < q.size) : ∃ v, Blocks F a v := by
  obtain ⟨v, hv, he⟩ := toward a.x q.x a.size
  refine ⟨v, hv, q, hq, ?_⟩
  have h1 : euclid 3 (fun d => a.x d + 1 * a.size * v d) q.x = |euclid 3 a.x q.x - a.size| := by
    rw [← Real.sqrt_sq_eq_abs, ← he, Real.sqrt_sq (euclid_nonneg _ _ _)]
  rw [h1]
  exact h

/-! ## Monitoring points on sharp edges -/

/-- The front of seeds that are all blocked once their sizes are Lipschitz. -/
theorem generateInterior_blocked {ρ : ℝ → ℝ} (hmono : Monotone ρ) (hρ : ∀ n : Nat, ρ (n : ℝ) = n) {F : Features} {L rmax : ℝ} (hF : F.OK L) (hsz : SizingOK F) (hmax : 0 ≤ rmax)
    (hc : F.corners.length ≤ F.surface.length) (hs : F.sizing.length ≤ F.surface.length) (threads : Nat) {seeds : List SeedRec} (h0 : ∀ a ∈ seeds, 0 ≤ a.size) (hin : ∃ a ∈ seeds, a.region ≠ 0)
    (hb : ∀ a ∈ seeds, ∀ r, r ≤ a.size → (∃ c ∈ seeds, c.size + L * euclid 3 a.x c.x ≤ r) → ∃ v, Blocks F ⟨a.x, r, a.region⟩ v) :
    ∃ (inputs : List RoundInput) (out : List SeedRec) (N : Nat), (∀ inp ∈ inputs, inp.OK) ∧ (∀ lf, N ≤ lf → generateInterior ρ F L rmax lf threads inputs seeds = some (some out)) ∧
      out.length = seeds.length ∧ ∀ (i : Nat) (a b : SeedRec), seeds[i]? = some a → out[i]? = some b → b.x = a.x ∧ b.region = a.region ∧ b.size ≤ a.size ∧ ∃ c ∈ seeds, c.size ≤ b.size := by
  have hne : seeds ≠ [] := by rintro rfl; simp at hin
  obtain ⟨T, eT, hT⟩ := meshTree_spec hne (le_refl seeds.length)
  obtain ⟨FT, eF, hFT⟩ := C62_buffers_partial F hc hs
  obtain ⟨ys, N1, a1, a2, a3, -, -⟩ := C74_mesher_lipschitz_partial L hF.L0 T seeds hT h0
  have hget : ∀ (i : Nat) (b : SeedRec), ys[i]? = some b → ∃ a, seeds[i]? = some a := fun i b hb => ⟨_, List.getElem?_eq_getElem (by rw [← a2]; exact (List.getElem?_eq_some_iff.1 hb).1)⟩
  have hT2 : T.Holds ys := Holds.congr hT a2 fun i a b ha hb => (a3 i a b ha hb).1
  have hyne : ys ≠ [] := by rintro rfl; simp at a2; exact hne (List.length_eq_zero_iff.1 a2.symm)
  have hy0 : ∀ b ∈ ys, 0 ≤ b.size := by
    intro b hb
    obtain ⟨i, hi⟩ := List.getElem?_of_mem hb
    obtain ⟨a, ha⟩ := hget i b hi
    obtain ⟨-, -, -, c, hc', hcb⟩ := a3 i a b ha hi
    have := h0 c hc'
    have := mul_nonneg hF.L0 (euclid_nonneg 3 a.x c.x)
    linarith
  have hinv : FrontInv ⟨ys, T, [], startFront ys 0, ys.length⟩ := by
    refine ⟨hyne, hT2, by simpa using hy0, fun i hi' => ?_⟩
    obtain ⟨-, a, ha, ha0⟩ := startFront_mem.1 hi'
    exact ⟨a, by simpa using ha, ha0⟩
  have hfne : startFront ys 0 ≠ [] := by
    obtain ⟨a, ha, ha0⟩ := hin
    obtain ⟨i, hi'⟩ := List.getElem?_of_mem ha
    have hil : i < ys.length := by rw [a2]; exact (List.getElem?_eq_some_iff.1 hi').1
    have hr := (a3 i a _ hi' (List.getElem?_eq_getElem hil)).2.1
    exact List.ne_nil_of_mem (startFront_mem.2 ⟨Nat.zero_le _, ys[i], by rw [Nat.sub_zero]; exact List.getElem?_eq_getElem hil, by rw [hr]; exact ha0⟩)
  obtain ⟨inputs, s', g1, g2, g3, g4, g5⟩ := frontRounds_blocked hmono hρ ⟨hF, hFT, hsz, hmax⟩ threads (startFront ys 0).length hinv hfne (le_refl _) (by
    intro i hi'
    obtain ⟨-, b, hb', -⟩ := startFront_mem.1 hi'
    rw [Nat.sub_zero] at hb'
    obtain ⟨a, ha⟩ := hget i b hb'
    obtain ⟨x1, x2, x3, x4⟩ := a3 i a b ha hb'
    obtain ⟨v, hv⟩ := hb a (List.mem_of_getElem? ha) b.size x3 x4
    refine ⟨b, v, by simpa using hb', ?_⟩
    obtain ⟨xb, sb, rb⟩ := b
    simp only at x1 x2
    subst x1
    subst x2
    exact hv)
  simp only [List.append_nil] at g3
  rw [g3] at g5
  obtain ⟨zs, N3, c1, c2, c3, -, -⟩ := C74_mesher_lipschitz_partial L hF.L0 s'.tree ys g5 hy0
  refine ⟨inputs, zs, max N1 N3, g1, fun lf hf => ?_, by omega, fun i a b ha hb' => ?_⟩
  · unfold generateInterior
    simp only [eT, eF, a1 lf (by omega), g2 lf, g3, c1 lf (by omega), Option.map_some]
  · have hil : i < ys.length := by rw [a2]; exact (List.getElem?_eq_some_iff.1 ha).1
    obtain ⟨x1, x2, x3, -⟩ := a3 i a _ ha (List.getElem?_eq_getElem hil)
    obtain ⟨y1, y2, y3, c, hc', hcb⟩ := c3 i _ b (List.getElem?_eq_getElem hil) hb'
    refine ⟨y1.trans x1, y2.trans x2, y3.trans x3, ?_⟩
    obtain ⟨j, hj⟩ := List.getElem?_of_mem hc'
    obtain ⟨a', ha'⟩ := hget j c hj
    obtain ⟨-, -, -, c', hc'', hcb'⟩ := a3 j a' c ha' hj
    refine ⟨c', hc'', ?_⟩
    have := mul_nonneg hF.L0 (euclid_nonneg 3 (ys[i]).x c.x)
    have := mul_nonneg hF.L0 (euclid_nonneg 3 a'.x c'.x)
    linarith

theorem sqF_sizing : SizingOK sqF := by intro q hq; simp [sqF] at hq

/-- **C58 fails, monitoring points that are not interior seeds.** In the example of the square, with any useful draws on the sharp edges and any numbers for the shuffle, there are rounds with which the
run ends and every monitoring point is a seed added on a sharp edge, inside the corner sphere; there is at least one. -/
theorem C58_on_sharp_edge_false (vs : Nat → Bool → List (Nat → ℝ)) (ys : Nat → Bool → List (ℝ × ℝ)) (hd : AllDrawsOK sqF vs ys) (hy : ys 0 false ≠ []) (us : Nat → ℝ)
    (hu : ∀ i, 0 ≤ us i ∧ us i ≤ 1) (threads : Nat) :
    ∃ (inputs : List RoundInput) (N : Nat) (out : RunResult), (∀ inp ∈ inputs, inp.OK) ∧
      (∀ lf, N ≤ lf → interiorRun id sqF (1 / 4) 1 lf threads none true ⟨vs, ys, fun _ => 0, [], inputs, us⟩ sqSeeds = some (some out)) ∧
      out.points ≠ [] ∧ ∀ p ∈ out.points, ∃ q ∈ sqF.corners, euclid 3 p.x q.x < q.size - 0.1 := by
  obtain ⟨xs, added, N1, e1, hl, hx, hne, ha⟩ := sq_run vs ys hd hy
  have hx0 : 0 < xs.length := by rw [hl]; simp [sqSeeds]
  have hx1 : xs.length = 1 := by rw [hl]; simp [sqSeeds]
  obtain ⟨inputs, s3, N2, hi, e2, l3, h3⟩ := generateInterior_blocked (ρ := id) (rmax := 1) (seeds := xs ++ added) monotone_id (fun _ => rfl) sqF_ok sqF_sizing (by norm_num) (by simp [sqF]) (by simp [sqF])
    threads (by
      intro a hm
      rcases List.mem_append.1 hm with hm | hm
      · rw [(hx a hm).2.1]; norm_num
      · exact (ha a hm).2.2.1)
    ⟨xs[0], by simp, by rw [(hx _ (List.getElem_mem hx0)).2.2]; norm_num⟩ (by
      intro a hm r hr hlow
      rcases List.mem_append.1 hm with hm | hm
      · obtain ⟨x1, x2, -⟩ := hx a hm
        refine blocked_of (q := ⟨ptN 100 0 0, 1, 0⟩) (.inl (by simp [sqF])) ?_
        have hd1 : euclid 3 a.x (ptN 100 0 0) = 1 := by
          have := euclid3_sq a.x (ptN 100 0 0)
          rw [x1] at this ⊢
          norm_num [ptN] at this
          rcases this with h | h
          · exact h
          · exact absurd (euclid_nonneg 3 (ptN 100 1 0) (ptN 100 0 0)) (by rw [h]; norm_num)
        have hr0 : 0 < r := by
          obtain ⟨c, hc, hcr⟩ := hlow
          rcases List.mem_append.1 hc with hc | hc
          · have := (hx c hc).2.1
            have := euclid_nonneg 3 a.x c.x
            linarith
          · obtain ⟨-, g, g2, -⟩ := ha c hc
            rw [← x1, euclid_comm] at g
            linarith
        simp only
        rw [hd1, abs_lt]
        constructor <;> linarith
      · obtain ⟨g1, -, g3, g4, -⟩ := ha a hm
        refine blocked_of (q := ⟨ptN 0.5 0.5 0, 2, 0⟩) (.inr (.inr (by simp [sqF]))) ?_
        have hn := euclid_nonneg 3 a.x (ptN 0.5 0.5 0)
        have hr0 : 0 ≤ r := by
          obtain ⟨c, hc, hcr⟩ := hlow
          have := euclid_nonneg 3 a.x c.x
          rcases List.mem_append.1 hc with hc | hc
          · have := (hx c hc).2.1
            linarith
          · have := (ha c hc).2.2.1
            linarith
        simp only
        rw [abs_lt]
        constructor
        · linarith
        · norm_num at g1 ⊢; linarith)
  have hlen : s3.length = 1 + added.length := by rw [l3, List.length_append, hx1]
  obtain ⟨r, er, r1, -, l, q1, q2, q3, q4⟩ := finish_generated (ρ := id) (crit := (xs ++ added).length) (m := (xs ++ added).length) (generate := true) (n := sqSeeds.length) monotone_id (fun _ => rfl) hu (seeds := s3)
    (by rw [hlen]; simp [sqSeeds])
  refine ⟨inputs, max N1 N2, r, hi, fun lf hf => ?_, ?_, fun p hp => ?_⟩
  · unfold interiorRun
    simp only [e1 lf (by omega), imposeStage, e2 lf (by omega), er, Option.map_some]
  · intro hnil
    have := q1.length_eq
    rw [hnil, q3, if_pos rfl, hlen] at this
    have hpos := List.length_pos_iff.2 hne
    simp only [sqSeeds, List.length_cons, List.length_nil] at this
    omega
  · obtain ⟨j, hj, hjp⟩ : ∃ i ∈ l, s3[i]? = some p := by
      obtain ⟨k, hk, rfl⟩ := List.getElem_of_mem hp
      have hk' : k < l.length := by rw [q1.length_eq]; exact hk
      exact ⟨l[k], List.getElem_mem hk', (List.forall₂_iff_get.1 q1).2 k hk' hk⟩
    have hj1 : 1 ≤ j := by have := q4 j hj; simpa [sqSeeds] using this
    have hjl : j < (xs ++ added).length := by rw [← l3]; exact (List.getElem?_eq_some_iff.1 hjp).1
    obtain ⟨y1, -⟩ := h3 j _ p (List.getElem?_eq_getElem hjl) hjp
    have hmem : (xs ++ added)[j] ∈ added := by
      rw [List.getElem_append_right (by omega)]
      exact List.getElem_mem _
    refine ⟨⟨ptN 0.5 0.5 0, 2, 0⟩, by simp [sqF], ?_⟩
    have := (ha _ hmem).1
    rw [y1]
    norm_num at this ⊢
    linarith

/-- The hypotheses of `C98_interior_run_partial` can be met by a run that ends. -/
example : ∃ (inputs : List RoundInput) (N : Nat) (out : RunResult), ∀ lf, N ≤ lf →
    interiorRun id sqF (1 / 4) 1 lf 4 none true ⟨fun _ _ => [ptN 0 0 1], fun _ _ => [(1, 0), (3 / 5, 4 / 5)], fun _ => 0, [], inputs, fun _ => 0⟩ sqSeeds = some (some out) := by
  obtain ⟨inputs, N, out, -, h, -⟩ := C58_on_sharp_edge_false _ _ sq_draws (by simp) (fun _ => 0) (by simp) 4
  exact ⟨inputs, N, out, h⟩

end VoroCrust
