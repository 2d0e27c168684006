import Verif.Props.FrontEnds

/-!
# C98, continued: the seeds that are never tested against imposed points
-/

namespace VoroCrust

/-! ## A round with one successful seed -/

theorem pickIndex_one {n : Nat} (hn : 0 < n) : pickIndex id 1 n = n - 1 := by
  unfold pickIndex
  simp

theorem shuffleFrom_keeps_first {n : Nat} (hn : 2 ≤ n) (us : List ℝ) (hu : ∀ u ∈ us, u = 1) {i : Nat} (hi : 1 ≤ i) (a b : Nat → Nat) (h : shuffleFrom id 0 n i us a = some b) : b 0 = a 0 := by
  induction us generalizing i a with
  | nil => exact congrFun (Option.some.inj h).symm 0
  | cons u us ih =>
    obtain rfl := hu u (by simp)
    unfold shuffleFrom at h
    simp only [Nat.sub_zero, Nat.zero_add, pickIndex_one (show 0 < n by omega)] at h
    by_cases hc : i < n ∧ n - 1 < n
    · rw [if_pos hc] at h
      rw [ih (fun v hv => hu v (by simp [hv])) (by omega) _ h]
      unfold swapAt
      rw [if_neg (by omega), if_neg (by omega)]
    · rw [if_neg hc] at h
      simp at h

/-- With draws that are all 1 the last seed of the front comes first. -/
theorem shuffledFront_last {l : List Nat} {x : Nat} (hl : l ≠ []) : ∃ tl, shuffledFront id (fun _ => 1) (l ++ [x]) = some (x :: tl) ∧ tl.Perm l := by
  obtain ⟨fr, e, hp⟩ := shuffledFront_spec (ρ := id) monotone_id (fun _ => rfl) (draw := fun _ => 1) (fun _ => le_refl _) (l ++ [x])
  have hlen : 0 < l.length := List.length_pos_iff.2 hl
  have hhead : ∃ tl, fr = x :: tl := by
    unfold shuffledFront at e
    cases h : shuffleFrom id 0 (l ++ [x]).length 0 ((List.range (l ++ [x]).length).map fun _ => (1 : ℝ)) (fun i => (l ++ [x]).getD i 0) with
    | none => rw [h] at e; simp at e
    | some b =>
      rw [h] at e
      obtain rfl := Option.some.inj e
      have hn : (l ++ [x]).length = l.length + 1 := by simp
      rw [hn] at h ⊢
      rw [List.range_succ_eq_map, List.map_cons] at h ⊢
      unfold shuffleFrom at h
      simp only [Nat.sub_zero, Nat.zero_add, pickIndex_one (show 0 < l.length + 1 by omega)] at h
      rw [if_pos (by omega)] at h
      have := shuffleFrom_keeps_first (by omega) _ (by
        intro u hu
        obtain ⟨-, -, rfl⟩ := List.mem_map.1 hu
        rfl) (le_refl 1) _ b h
      refine ⟨_, congrArg (· :: _) (this.trans ?_)⟩
      unfold swapAt
      rw [if_neg (by omega), if_pos rfl]
      simp
  obtain ⟨tl, rfl⟩ := hhead
  exact ⟨tl, e, (List.perm_cons x).1 (hp.trans (List.perm_append_comm (l₁ := l) (l₂ := [x])))⟩

theorem recsAt_mem {xs : List SeedRec} (l : List Nat) {r : List (Nat × SeedRec)} (h : recsAt xs l = some r) {i : Nat} {q : SeedRec} (hq : (i, q) ∈ r) : q ∈ xs := by
  induction l generalizing r with
  | nil =>
    obtain rfl := Option.some.inj h
    simp at hq
  | cons j l ih =>
    unfold recsAt at h
    cases h1 : xs[j]? with
    | none => simp only [h1] at h; simp at h
    | some s =>
      cases h2 : recsAt xs l with
      | none => simp only [h1, h2] at h; simp at h
      | some r' =>
        simp only [h1, h2] at h
        obtain rfl := Option.some.inj h
        rcases List.mem_cons.1 hq with hq | hq
        · rw [(Prod.mk.injEq _ _ _ _ ▸ hq : i = j ∧ q = s).2]
          exact List.mem_of_getElem? h1
        · exact ih h2 hq

theorem featureNear_mem {T : Option MTree} {xs : List SeedRec} {L r : ℝ} {x : Nat → ℝ} {l : List (Nat × SeedRec)} (h : featureNear T xs L r x = some l) {i : Nat} {q : SeedRec} (hq : (i, q) ∈ l) : q ∈ xs := by
  unfold featureNear at h
  split at h
  · obtain rfl := Option.some.inj h
    simp at hq
  · split at h
    · simp at h
    · split at h
      · simp at h
      · exact recsAt_mem _ h hq

/-- Only spheres that exist are looked at. -/
theorem dartSpheres_mem {F : Features} {FT : FeatureTrees} {L : ℝ} {T : MTree} {seeds interior : List SeedRec} {s : SeedRec} {nb : List (Option Nat × SeedRec)} (h : dartSpheres F FT L T seeds interior s = some nb)
    {q : SeedRec} (hq : (none, q) ∈ nb) : q ∈ F.surface ∨ q ∈ F.edges ∨ q ∈ F.corners := by
  unfold dartSpheres at h
  split at h
  · rename_i l a b c e1 e2 e3 e4
    split at h
    · simp at h
    · obtain rfl := Option.some.inj h
      rcases List.mem_append.1 hq with hq | hq
      · obtain ⟨p, -, hp⟩ := List.mem_map.1 hq
        simp at hp
      · obtain ⟨⟨i, q'⟩, hm, hp⟩ := List.mem_map.1 hq
        simp only [Prod.mk.injEq, true_and] at hp
        subst hp
        rcases List.mem_append.1 hm with hm | hm
        · rcases List.mem_append.1 hm with hm | hm
          · exact .inl (featureNear_mem e2 hm)
          · exact .inr (.inl (featureNear_mem e3 hm))
        · exact .inr (.inr (featureNear_mem e4 hm))
  · simp at h

theorem throwDarts_length {F : Features} {FT : FeatureTrees} {L rmax : ℝ} {seeds interior : List SeedRec} {idx : Nat} {s : SeedRec} {nb : List (Option Nat × SeedRec)} (ds : List ((Nat → ℝ) × ℝ))
    (new : List SeedRec) {out : List SeedRec} (h : throwDarts F FT L rmax seeds interior idx s nb ds new = some out) : out.length ≤ new.length + ds.length := by
  induction ds generalizing new with
  | nil =>
    obtain rfl := Option.some.inj h
    simp
  | cons d ds ih =>
    obtain ⟨dir, u⟩ := d
    unfold throwDarts at h
    split at h
    · simp at h
    · have := ih _ h
      simp only [List.length_cons]
      omega
    · have := ih _ h
      simp only [List.length_cons, List.length_append, List.length_nil] at this ⊢
      omega

/-- A round in which the last seed of the front throws all its darts to one free place, and all other active seeds are blocked. -/
theorem frontRound_accept {F : Features} {FT : FeatureTrees} {L rmax : ℝ} (hP : FrontParams F FT L rmax) {threads : Nat} (ht : 1 ≤ threads) {s : FrontState} (hs : FrontInv s) (hint : s.interior = [])
    {l : List Nat} {x : Nat} (hf : s.front = l ++ [x]) (hl : l ≠ []) (hb : ∀ i ∈ l, ∃ b w, s.seeds[i]? = some b ∧ Blocks F b w) {a : SeedRec} (ha : s.seeds[x]? = some a) {v : Nat → ℝ} {u : ℝ}
    (hv : v 0 ^ 2 + v 1 ^ 2 + v 2 ^ 2 = 1) (hu : 1 ≤ u ∧ u ≤ 2) (hreg : ∀ c ∈ s.seeds, c.region = a.region)
    (hfree : ∀ q, q ∈ s.seeds ∨ q ∈ F.surface ∨ q ∈ F.edges ∨ q ∈ F.corners → q.size * q.size ≤ distSq3 (fun d => a.x d + u * a.size * v d) q.x) :
    ∃ (inp : RoundInput) (new : List SeedRec) (inactive : List Nat), inp.OK ∧
      (∀ lf, frontRound id F FT L rmax lf threads inp s =
        some ({ s with interior := new, front := inactive ++ (List.range new.length).map fun i => s.seeds.length + i }, false)) ∧
      new ≠ [] ∧ (∀ p ∈ new, (p.x = fun d => a.x d + u * a.size * v d) ∧ p.region = a.region ∧ 0 ≤ p.size ∧ p.size ≤ rmax ∧ BigEnough F L rmax s.seeds p) ∧ ∀ i ∈ inactive, i ∈ l := by
  classical
  obtain ⟨tl, e1, hperm⟩ := shuffledFront_last (x := x) hl
  rw [← hf] at e1
  have hmemfr : ∀ i ∈ x :: tl, i ∈ s.front := fun i hi => by
    rw [hf]
    rcases List.mem_cons.1 hi with rfl | hi
    · simp
    · simp [hperm.mem_iff.1 hi]
  obtain ⟨fs, e2, h2⟩ := frontRecs_spec (seeds := s.seeds) (interior := s.interior) (x :: tl) fun i hi => by
    obtain ⟨b, hb', -⟩ := hs.front i (hmemfr i hi); exact ⟨b, hb'⟩
  have hlen : 0 < fs.length := by rw [← h2.length_eq]; simp
  obtain ⟨act, e3, -, hact0⟩ := activate_spec (L := L) (cap := 100 * threads) (fs := fun i => fs.getD i ⟨fun _ => 0, 0, 0⟩) hlen
  have hsplit : splitFront act (x :: tl) 0 = (x :: (splitFront act tl 1).1, (splitFront act tl 1).2) := by
    simp [splitFront, hact0]
  have hrest : ∀ i, i ∈ (splitFront act tl 1).1 ∨ i ∈ (splitFront act tl 1).2 → i ∈ l := fun i h => by
    rw [← hperm.mem_iff, ← (splitFront_perm act tl 1).mem_iff, List.mem_append]
    exact h
  -- directions
  have hdir : ∃ dir : Nat → Nat → ℝ, (∀ i, dir i 0 ^ 2 + dir i 1 ^ 2 + dir i 2 ^ 2 = 1) ∧ ∀ i ∈ l, ∃ b, s.seeds[i]? = some b ∧ Blocks F b (dir i) := by
    refine ⟨fun i => if h : ∃ w b, s.seeds[i]? = some b ∧ Blocks F b w then h.choose else ptN 1 0 0, fun i => ?_, fun i hi => ?_⟩
    · by_cases h : ∃ w b, s.seeds[i]? = some b ∧ Blocks F b w
      · simp only [dif_pos h]
        obtain ⟨b, -, hb'⟩ := h.choose_spec
        exact hb'.1
      · simp only [dif_neg h]
        norm_num [ptN]
    · obtain ⟨b, w, hb', hw⟩ := hb i hi
      have h : ∃ w b, s.seeds[i]? = some b ∧ Blocks F b w := ⟨w, b, hb', hw⟩
      simp only [dif_pos h]
      exact h.choose_spec
  obtain ⟨dir, hd1, hd2⟩ := hdir
  let inp : RoundInput := ⟨fun _ => 1, fun k _ => if k = 0 then v else dir ((splitFront act tl 1).1.getD (k - 1) 0), fun k _ => if k = 0 then u else 1⟩
  have hi : inp.OK := by
    refine ⟨fun _ => ⟨by norm_num [inp], by norm_num [inp]⟩, fun k d => ?_, fun k d => ?_⟩
    · by_cases hk : k = 0
      · simp only [inp, if_pos hk]; exact hv
      · simp only [inp, if_neg hk]; exact hd1 _
    · by_cases hk : k = 0
      · simp only [inp, if_pos hk]; exact hu
      · simp only [inp, if_neg hk]; norm_num
  have e4 := newSpheres_blocked hP hs.tree hs.nonneg dir (inp := inp) (splitFront act tl 1).1 (fun i h => by
    obtain ⟨b, hb', hw⟩ := hd2 i (hrest i (.inl h))
    exact ⟨b, by rw [hint, List.append_nil]; exact hb', hw⟩) 1 (by
      intro j i hj d
      simp only [inp]
      rw [if_neg (by omega), if_neg (by omega)]
      simp [List.getD, hj])
  -- the darts of the last seed
  have ha' : (s.seeds ++ s.interior)[x]? = some a := by rw [hint, List.append_nil]; exact ha
  have ha0 := hs.nonneg a (List.mem_of_getElem? ha')
  obtain ⟨nb, enb, htag, -⟩ := dartSpheres_spec hP.ok hP.hold hs.tree (interior := s.interior) ha0
  obtain ⟨w, ew, -, hw2⟩ := throwDart_spec hP.ok.L0 hP.rmax hP.hold hP.sizing ha' hs.nonneg htag [] v u
  have hwn := hw2 (fun q hq => by
      obtain ⟨t, q⟩ := q
      cases t with
      | some j =>
        have := List.mem_of_getElem? (htag _ _ hq)
        rw [hint, List.append_nil] at this
        exact hfree q (.inl this)
      | none => exact hfree q (.inr (dartSpheres_mem enb hq))) (by simp) (fun c hc => by
      rw [hint, List.append_nil] at hc
      exact hreg c hc)
  obtain ⟨p0, rfl⟩ := Option.ne_none_iff_exists'.1 hwn
  obtain ⟨new, en, hn, -⟩ := throwDarts_spec hP.ok.L0 hP.rmax hP.hold hP.sizing ha' hs.nonneg htag ((List.range 20).map fun d => (inp.dir 0 d, inp.fac 0 d)) []
  rw [List.nil_append] at en
  have hnl : new.length ≤ 20 := by simpa using throwDarts_length _ _ en
  have hne : new ≠ [] := by
    have hd : (List.range 20).map (fun d => (inp.dir 0 d, inp.fac 0 d)) = (v, u) :: (List.range 19).map fun d => (inp.dir 0 (d + 1), inp.fac 0 (d + 1)) := by
      rw [List.range_succ_eq_map, List.map_cons, List.map_map]
      rfl
    rw [hd] at en
    unfold throwDarts at en
    simp only [ew, List.nil_append] at en
    obtain ⟨ps, ep, -⟩ := throwDarts_spec hP.ok.L0 hP.rmax hP.hold hP.sizing ha' hs.nonneg htag ((List.range 19).map fun d => (inp.dir 0 (d + 1), inp.fac 0 (d + 1))) [p0]
    rw [ep] at en
    rw [← Option.some.inj en]
    simp
  have e5 : newSpheres F FT L rmax s.tree s.seeds s.interior inp (x :: (splitFront act tl 1).1) 0 = some (new :: (splitFront act tl 1).1.map fun _ => []) := by
    unfold newSpheres
    simp only [frontSphere_eq, ha', enb, en, e4]
  have eflat : (new :: (splitFront act tl 1).1.map fun _ => ([] : List SeedRec)).flatten = new := by simp
  refine ⟨inp, new, (splitFront act tl 1).2, hi, fun lf => ?_, hne, fun p hp => ?_, fun i hi' => hrest i (.inr hi')⟩
  · unfold frontRound
    simp only [show inp.draw = fun _ => 1 from rfl, e1, e2, e3, hsplit, e5, eflat]
    unfold endRound
    have h0 : ¬ new.length = 0 := fun h => hne (List.length_eq_zero_iff.1 h)
    rw [if_neg (fun h => h0 h.1), if_neg h0]
    simp only [hint, List.length_nil, List.nil_append, Nat.zero_add, Nat.add_zero]
    rw [if_pos (by omega)]
  · obtain ⟨g, -, d, hd, hx⟩ := hn p hp
    obtain ⟨e, -, rfl⟩ := List.mem_map.1 hd
    refine ⟨?_, g.region, g.nonneg, g.max, by have := g.least; rwa [hint, List.append_nil] at this⟩
    rw [hx]
    simp only [inp, if_true]

/-! ## The example -/

theorem startFront_all {seeds : List SeedRec} (k : Nat) (h : ∀ a ∈ seeds, a.region ≠ 0) : startFront seeds k = List.range' k seeds.length := by
  induction seeds generalizing k with
  | nil => rfl
  | cons s ss ih =>
    unfold startFront
    rw [if_neg (h s (by simp)), ih (k + 1) fun a ha => h a (by simp [ha])]
    rfl

/-- The imposed point `(100, -4, 0)` with radius 10. -/
def impPt : Nat → ℝ := fun d => if d = 0 then 100 else if d = 1 then -4 else if d = 2 then 0 else 10

/-- Something at `x = 100` is far from something near the square. -/
theorem sq_far {x a : Nat → ℝ} (hx : x 0 = 100) (ha : euclid 3 a (ptN 0.5 0.5 0) < 1.8) : 97 < euclid 3 x a := by
  have h1 : 99.5 ≤ euclid 3 x (ptN 0.5 0.5 0) := by
    refine le_of_sq_le_sq ?_ (euclid_nonneg _ _ _)
    rw [euclid3_sq, hx]
    have e : ptN 0.5 0.5 0 0 = 0.5 := rfl
    rw [e]
    nlinarith [sq_nonneg (x 1 - ptN 0.5 0.5 0 1), sq_nonneg (x 2 - ptN 0.5 0.5 0 2)]
  have h2 := euclid_triangle 3 x a (ptN 0.5 0.5 0)
  norm_num at *
  linarith

theorem euclid3_eq {x y : Nat → ℝ} {r : ℝ} (hr : 0 ≤ r) (h : (x 0 - y 0) ^ 2 + (x 1 - y 1) ^ 2 + (x 2 - y 2) ^ 2 = r ^ 2) : euclid 3 x y = r := by
  rw [← euclid3_sq] at h
  exact (sq_eq_sq₀ (euclid_nonneg _ _ _) hr).1 h

/-- What is known of the seeds of the example before points are imposed. -/
structure SqCrit (crit : List SeedRec) : Prop where
  first : ∃ a, crit[0]? = some a ∧ a.x = ptN 100 1 0 ∧ a.size = 1
  two : 2 ≤ crit.length
  all : ∀ a ∈ crit, a.region = 1 ∧ 0 ≤ a.size ∧ a.size ≤ 1 ∧ ((a.x = ptN 100 1 0 ∧ a.size = 1) ∨ euclid 3 a.x (ptN 0.5 0.5 0) < 1.8)

theorem sq_outside {x : Nat → ℝ} (h0 : x 0 = 100) (h2 : x 2 = 0) (h1 : 1 ≤ x 1 ^ 2) : ∀ q, q ∈ sqF.surface ∨ q ∈ sqF.edges ∨ q ∈ sqF.corners → 0 ≤ q.size ∧ q.size ≤ euclid 3 x q.x := by
  intro q hq
  have key : ∀ c : Nat → ℝ, c 0 ≤ 1 → 3 ≤ euclid 3 x c := by
    intro c hc
    refine le_of_sq_le_sq ?_ (euclid_nonneg _ _ _)
    rw [euclid3_sq, h0]
    nlinarith [sq_nonneg (x 1 - c 1), sq_nonneg (x 2 - c 2)]
  simp only [sqF, List.mem_cons, List.not_mem_nil, or_false] at hq
  rcases hq with rfl | (rfl | rfl | rfl | rfl) | rfl
  · refine ⟨by norm_num, le_of_sq_le_sq ?_ (euclid_nonneg _ _ _)⟩
    rw [euclid3_sq, h0, h2]
    norm_num [ptN]
    simpa using h1
  all_goals
    refine ⟨by norm_num, le_trans (by norm_num) (key _ (by norm_num [sqPt, ptN]))⟩

theorem sq_verdict {crit : List SeedRec} (hc : SqCrit crit) {vs : List (Option Nat)} (h : List.Forall₂ (ImposedVerdict crit sqF) [impPt] vs) : vs = [some 1] := by
  have hout := sq_outside (x := impPt) rfl rfl (by norm_num [impPt])
  have h1 : ∀ xs : List SeedRec, (∀ q ∈ xs, q ∈ sqF.surface ∨ q ∈ sqF.edges ∨ q ∈ sqF.corners) → OutsideOf impPt xs := fun xs hx q hq => by
    have := (hout q (hx q hq)).2
    linarith
  cases h with
  | cons a h =>
    cases h
    obtain ⟨s, hs, -, ⟨rfl, -⟩ | ⟨-, h | h | h | h⟩⟩ := a
    · rw [(hc.all s hs).1]
    · rw [(hc.all s hs).1] at h; simp at h
    · exact absurd (h1 _ fun q hq => .inl hq) h
    · exact absurd (h1 _ fun q hq => .inr (.inl hq)) h
    · exact absurd (h1 _ fun q hq => .inr (.inr hq)) h

theorem one_split : Splits 1 1 (fun t => if t = 0 then 1 else 0) := ⟨fun t ht => if_neg (by omega), by decide⟩

theorem one_counter : (runCounter [0, 0] ⟨0, fun _ => none, fun t => if t = 0 then 1 else 0⟩).Done ∧ (runCounter [0, 0] ⟨0, fun _ => none, fun t => if t = 0 then 1 else 0⟩).val = 1 := by
  constructor
  · intro t
    rcases t with _ | t
    · exact ⟨rfl, rfl⟩
    · constructor <;> simp [runCounter, counterStep, upd]
  · rfl

theorem sq_impose {crit : List SeedRec} (hc : SqCrit crit) : imposeSeeds crit sqF (1 / 4) [impPt] (fun t => if t = 0 then 1 else 0) [0, 0] = some (crit ++ [⟨impPt, 10, 1⟩]) := by
  have hne : crit ≠ [] := by
    rintro rfl
    simpa using hc.two
  obtain ⟨vs, hv, h1, -⟩ := C48_counter_partial crit sqF (1 / 4) [impPt] hne sqF_ok (by simp [sqF]) (by simp [sqF])
  have := sq_verdict hc hv
  subst this
  rw [(h1 1 _ _ one_split one_counter.1).2.2, one_counter.2, if_pos (by simp [acceptedCount])]
  simp [acceptedRecs, impPt]

/-- The front of the example: the imposed seed throws a dart to `(100, -1, 0)`, nothing else is added. -/
theorem sq_front {crit : List SeedRec} (hc : SqCrit crit) {threads : Nat} (ht : 1 ≤ threads) :
    ∃ (inputs : List RoundInput) (out : List SeedRec) (N : Nat), (∀ inp ∈ inputs, inp.OK) ∧
      (∀ lf, N ≤ lf → generateInterior id sqF (1 / 4) 1 lf threads inputs (crit ++ [⟨impPt, 10, 1⟩]) = some (some out)) ∧
      (∃ b, out[crit.length]? = some b ∧ b.x = impPt) ∧ ∃ b, out[crit.length + 1]? = some b ∧ b.x 0 = 100 ∧ b.x 1 = -1 ∧ b.x 2 = 0 := by
  set seeds := crit ++ [(⟨impPt, 10, 1⟩ : SeedRec)] with hseeds
  have hsl : seeds.length = crit.length + 1 := by simp [hseeds]
  have hmem : ∀ a ∈ seeds, a ∈ crit ∨ a = ⟨impPt, 10, 1⟩ := fun a ha => by simpa [hseeds] using ha
  have hreg : ∀ a ∈ seeds, a.region = 1 := fun a ha => by
    rcases hmem a ha with h | rfl
    · exact (hc.all a h).1
    · rfl
  have h0 : ∀ a ∈ seeds, 0 ≤ a.size := fun a ha => by
    rcases hmem a ha with h | rfl
    · exact (hc.all a h).2.1
    · norm_num
  have hlow : ∀ c ∈ seeds, ∀ x : Nat → ℝ, x 0 = 100 → 1 ≤ c.size + 1 / 4 * euclid 3 x c.x := by
    intro c hcm x hx
    have := euclid_nonneg 3 x c.x
    rcases hmem c hcm with h | rfl
    · obtain ⟨-, g0, -, ⟨-, g⟩ | g⟩ := hc.all c h
      · linarith
      · have := sq_far hx g
        linarith
    · simp only; linarith
  have hne : seeds ≠ [] := by simp [hseeds]
  obtain ⟨T, eT, hT⟩ := meshTree_spec hne (le_refl seeds.length)
  obtain ⟨FT, eF, hFT⟩ := C62_buffers_partial sqF (by simp [sqF]) (by simp [sqF])
  obtain ⟨ys, N1, a1, a2, a3, a4, -⟩ := C74_mesher_lipschitz_partial (1 / 4) (by norm_num) T seeds hT h0
  have hget : ∀ (i : Nat) (b : SeedRec), ys[i]? = some b → ∃ a, seeds[i]? = some a := fun i b hb => ⟨_, List.getElem?_eq_getElem (by rw [← a2]; exact (List.getElem?_eq_some_iff.1 hb).1)⟩
  have hT2 : T.Holds ys := Holds.congr hT a2 fun i a b ha hb => (a3 i a b ha hb).1
  have hyl : ys.length = crit.length + 1 := by rw [a2, hsl]
  have hyne : ys ≠ [] := by rintro rfl; simp at hyl
  -- the sizes after the first pass
  have hy0 : ∀ b ∈ ys, 0 ≤ b.size ∧ b.region = 1 := by
    intro b hb
    obtain ⟨i, hi⟩ := List.getElem?_of_mem hb
    obtain ⟨a, ha⟩ := hget i b hi
    obtain ⟨-, g2, -, c, hc', hcb⟩ := a3 i a b ha hi
    have := h0 c hc'
    have := euclid_nonneg 3 a.x c.x
    exact ⟨by linarith, by rw [g2]; exact hreg a (List.mem_of_getElem? ha)⟩
  have hold : ∀ (i : Nat) (b : SeedRec), i < crit.length → ys[i]? = some b → 0 ≤ b.size ∧ b.size ≤ 1 ∧ ((b.x = ptN 100 1 0 ∧ 1 ≤ b.size) ∨ euclid 3 b.x (ptN 0.5 0.5 0) < 1.8) := by
    intro i b hi hb
    have ha : seeds[i]? = some crit[i] := by rw [hseeds, List.getElem?_append_left hi]; exact List.getElem?_eq_getElem hi
    obtain ⟨g1, -, g3, c, hc', hcb⟩ := a3 i _ b ha hb
    obtain ⟨-, -, k1, k2⟩ := hc.all _ (List.getElem_mem hi)
    refine ⟨(hy0 b (List.mem_of_getElem? hb)).1, g3.trans k1, ?_⟩
    rcases k2 with ⟨k2, -⟩ | k2
    · exact .inl ⟨g1.trans k2, (hlow c hc' _ (by rw [k2]; rfl)).trans hcb⟩
    · exact .inr (by rw [g1]; exact k2)
  have himp : seeds[crit.length]? = some ⟨impPt, 10, 1⟩ := by simp [hseeds]
  obtain ⟨m, hm⟩ : ∃ m, ys[crit.length]? = some m := ⟨_, List.getElem?_eq_getElem (by omega)⟩
  obtain ⟨m1, -, -, c, hcm, hcb⟩ := a3 _ _ m himp hm
  have hm1 : m.x = impPt := m1
  have d5 : euclid 3 impPt (ptN 100 1 0) = 5 := euclid3_eq (by norm_num) (by norm_num [impPt, ptN])
  have hmhi : m.size ≤ 2.26 := by
    obtain ⟨b, hb⟩ : ∃ b, ys[0]? = some b := ⟨_, List.getElem?_eq_getElem (by omega)⟩
    obtain ⟨a, ha, hax, -⟩ := hc.first
    have ha' : seeds[0]? = some a := by rw [hseeds, List.getElem?_append_left (by have := hc.two; omega)]; exact ha
    have hbx : b.x = ptN 100 1 0 := by rw [(a3 0 a b ha' hb).1, hax]
    have hb1 := (hold 0 b (by have := hc.two; omega) hb).2.1
    have := a4 _ 0 _ m b himp hm hb
    rw [hm1, hbx, d5] at this
    have := this (by norm_num)
    norm_num at this ⊢
    linarith
  have hmlo : 2 ≤ m.size := by
    simp only at hcb
    have hn := euclid_nonneg 3 impPt c.x
    rcases hmem c hcm with h | rfl
    · obtain ⟨-, g0, -, ⟨gx, g⟩ | g⟩ := hc.all c h
      · rw [gx, d5] at hcb; linarith
      · have := sq_far (x := impPt) rfl g
        linarith
    · simp only at hcb hn; linarith
  have hys : ∀ q ∈ ys, (∃ i, i < crit.length ∧ ys[i]? = some q) ∨ q = m := by
    intro q hq
    obtain ⟨i, hi⟩ := List.getElem?_of_mem hq
    have hil := (List.getElem?_eq_some_iff.1 hi).1
    by_cases h : i < crit.length
    · exact .inl ⟨i, h, hi⟩
    · rw [show i = crit.length by omega] at hi
      exact .inr (Option.some.inj (hi.symm.trans hm))
  -- distances from the place of the dart
  have hdist : ∀ x : Nat → ℝ, x 0 = 100 → x 1 = -1 → x 2 = 0 → ∀ q ∈ ys, q.size ≤ euclid 3 x q.x ∧ 1 / 2 ≤ q.size + 1 / 4 * euclid 3 x q.x := by
    intro x x0 x1 x2 q hq
    rcases hys q hq with ⟨i, hi, hqi⟩ | rfl
    · obtain ⟨g0, g1, ⟨gx, -⟩ | g⟩ := hold i q hi hqi
      · have : euclid 3 x (ptN 100 1 0) = 2 := euclid3_eq (by norm_num) (by rw [x0, x1, x2]; norm_num [ptN])
        rw [gx, this]
        constructor <;> linarith
      · have := sq_far x0 g
        constructor <;> linarith
    · have : euclid 3 x impPt = 3 := euclid3_eq (by norm_num) (by rw [x0, x1, x2]; norm_num [impPt])
      rw [hm1, this]
      norm_num at hmhi
      constructor <;> linarith
  have hP : FrontParams sqF FT (1 / 4) 1 := ⟨sqF_ok, hFT, sqF_sizing, by norm_num⟩
  have hblock : ∀ (i : Nat), i < crit.length → ∃ b w, ys[i]? = some b ∧ Blocks sqF b w := by
    intro i hi
    obtain ⟨b, hb⟩ : ∃ b, ys[i]? = some b := ⟨_, List.getElem?_eq_getElem (by omega)⟩
    obtain ⟨g0, g1, ⟨gx, g2⟩ | g⟩ := hold i b hi hb
    · obtain ⟨w, hw⟩ := blocked_of (F := sqF) (a := b) (q := ⟨ptN 100 0 0, 1, 0⟩) (.inl (by simp [sqF])) (by
        have : euclid 3 (ptN 100 1 0) (ptN 100 0 0) = 1 := euclid3_eq (by norm_num) (by norm_num [ptN])
        simp only
        rw [gx, this, abs_lt]
        constructor <;> linarith)
      exact ⟨b, w, hb, hw⟩
    · obtain ⟨w, hw⟩ := blocked_of (F := sqF) (a := b) (q := ⟨ptN 0.5 0.5 0, 2, 0⟩) (.inr (.inr (by simp [sqF]))) (by
        have := euclid_nonneg 3 b.x (ptN 0.5 0.5 0)
        simp only
        norm_num at g this ⊢
        rw [abs_lt]
        constructor <;> linarith)
      exact ⟨b, w, hb, hw⟩
  have hstart : startFront ys 0 = List.range' 0 crit.length ++ [crit.length] := by
    rw [startFront_all 0 fun a ha => by rw [(hy0 a ha).2]; norm_num, hyl, List.range'_1_concat, Nat.zero_add]
  have hinv : FrontInv ⟨ys, T, [], startFront ys 0, ys.length⟩ := by
    refine ⟨hyne, hT2, by simpa using fun a ha => (hy0 a ha).1, fun i hi' => ?_⟩
    obtain ⟨-, a, ha, ha0⟩ := startFront_mem.1 hi'
    exact ⟨a, by simpa using ha, ha0⟩
  have hdart : ∀ d, m.x d + 3 / m.size * m.size * ptN 0 1 0 d = if d = 0 then 100 else if d = 1 then -1 else if d = 2 then 0 else 10 := by
    intro d
    rw [div_mul_cancel₀ _ (by linarith), hm1]
    unfold impPt ptN
    split_ifs <;> norm_num
  obtain ⟨inp, new, inactive, i1, i2, i3, i4, i5⟩ := frontRound_accept hP ht hinv rfl hstart (by
      intro h
      have h1 := congrArg List.length h
      have h2 := hc.two
      rw [List.length_range', List.length_nil] at h1
      omega) (fun i hi => hblock i (by simpa using hi)) hm (v := ptN 0 1 0) (u := 3 / m.size) (by norm_num [ptN])
    ⟨by rw [le_div_iff₀ (by linarith)]; norm_num at hmhi ⊢; linarith, by rw [div_le_iff₀ (by linarith)]; linarith⟩
    (fun c hc' => by rw [(hy0 c hc').2, (hy0 m (List.mem_of_getElem? hm)).2]) (by
      intro q hq
      have hq2 : 0 ≤ q.size ∧ q.size ≤ euclid 3 (fun d => m.x d + 3 / m.size * m.size * ptN 0 1 0 d) q.x := by
        rcases hq with hq | hq
        · exact ⟨(hy0 q hq).1, (hdist _ (hdart 0) (hdart 1) (hdart 2) q hq).1⟩
        · exact sq_outside (by rw [hdart]; norm_num) (by rw [hdart]; norm_num) (by rw [hdart]; norm_num) q hq
      rw [distSq3_sq]
      nlinarith [hq2.1, hq2.2])
  simp only at i2 i4
  have hnew : ∀ p ∈ new, p.x 0 = 100 ∧ p.x 1 = -1 ∧ p.x 2 = 0 := fun p hp => by
    rw [(i4 p hp).1]
    exact ⟨(hdart 0).trans (by norm_num), (hdart 1).trans (by norm_num), (hdart 2).trans (by norm_num)⟩
  have hnewb : ∀ p ∈ new, ∃ w, Blocks sqF p w := by
    intro p hp
    obtain ⟨-, -, -, p1, p2⟩ := i4 p hp
    obtain ⟨x0, x1, x2⟩ := hnew p hp
    have hpos : 0 < p.size := by
      rcases p2 with ⟨a, ha, hap⟩ | h | ⟨q, hq, -⟩
      · have := (hdist p.x x0 x1 x2 a ha).2
        linarith
      · linarith
      · simp [sqF] at hq
    refine blocked_of (F := sqF) (a := p) (q := ⟨ptN 100 0 0, 1, 0⟩) (.inl (by simp [sqF])) ?_
    have : euclid 3 p.x (ptN 100 0 0) = 1 := euclid3_eq (by norm_num) (by rw [x0, x1, x2]; norm_num [ptN])
    simp only
    rw [this, abs_lt]
    constructor <;> linarith
  have hfr : ∀ i ∈ inactive ++ (List.range new.length).map (fun i => ys.length + i), ∃ a w, (ys ++ new)[i]? = some a ∧ a.region = 1 ∧ Blocks sqF a w := by
    intro i hi
    rcases List.mem_append.1 hi with hi | hi
    · have hil : i < crit.length := by simpa using i5 i hi
      obtain ⟨b, w, hb, hw⟩ := hblock i hil
      exact ⟨b, w, by rw [List.getElem?_append_left (by omega)]; exact hb, (hy0 b (List.mem_of_getElem? hb)).2, hw⟩
    · obtain ⟨k, hk, rfl⟩ := List.mem_map.1 hi
      rw [List.mem_range] at hk
      obtain ⟨w, hw⟩ := hnewb _ (List.getElem_mem hk)
      refine ⟨new[k], w, by simp [hk], ?_, hw⟩
      rw [(i4 _ (List.getElem_mem hk)).2.1]
      exact (hy0 m (List.mem_of_getElem? hm)).2
  have hnn : ∀ a ∈ ys ++ new, 0 ≤ a.size := fun a ha => by
    rcases List.mem_append.1 ha with ha | ha
    · exact (hy0 a ha).1
    · exact (i4 a ha).2.2.1
  have hinv2 : FrontInv ⟨ys, T, new, inactive ++ (List.range new.length).map (fun i => ys.length + i), ys.length⟩ :=
    ⟨hyne, hT2, hnn, fun i hi => by
      obtain ⟨a, -, ha, ha1, -⟩ := hfr i hi
      exact ⟨a, ha, by rw [ha1]; norm_num⟩⟩
  have hnl : 0 < new.length := List.length_pos_iff.2 i3
  obtain ⟨inputs, s', g1, g2, g3, g4, g5⟩ := frontRounds_blocked (ρ := id) monotone_id (fun _ => rfl) hP threads _ hinv2 (by
      intro h
      have h1 := congrArg List.length h
      rw [List.length_append, List.length_map, List.length_range, List.length_nil] at h1
      omega) (le_refl _) (fun i hi => by
      obtain ⟨a, w, ha, -, hw⟩ := hfr i hi
      exact ⟨a, w, ha, hw⟩)
  simp only at g3
  rw [g3] at g5
  obtain ⟨zs, N3, c1, c2, c3, -, -⟩ := C74_mesher_lipschitz_partial (1 / 4) (by norm_num) s'.tree (ys ++ new) g5 hnn
  refine ⟨inp :: inputs, zs, max N1 N3, ?_, fun lf hf => ?_, ?_, ?_⟩
  · intro i hi
    rcases List.mem_cons.1 hi with rfl | hi
    · exact i1
    · exact g1 i hi
  · unfold generateInterior
    simp only [eT, eF, a1 lf (by omega)]
    have : frontRounds id sqF FT (1 / 4) 1 lf threads (inp :: inputs) ⟨ys, T, [], startFront ys 0, ys.length⟩ = some (s', true) := by
      unfold frontRounds
      rw [i2 lf]
      exact g2 lf
    simp only [this, g3, c1 lf (by omega), Option.map_some]
  · have hl : crit.length < zs.length := by rw [c2, List.length_append]; omega
    refine ⟨_, List.getElem?_eq_getElem hl, ?_⟩
    rw [(c3 crit.length m _ (by rw [List.getElem?_append_left (by omega)]; exact hm) (List.getElem?_eq_getElem hl)).1, hm1]
  · have hl : crit.length + 1 < zs.length := by rw [c2, List.length_append]; omega
    refine ⟨_, List.getElem?_eq_getElem hl, ?_⟩
    rw [(c3 (crit.length + 1) new[0] _ (by rw [List.getElem?_append_right (by omega), hyl, Nat.sub_self]; exact List.getElem?_eq_getElem hnl) (List.getElem?_eq_getElem hl)).1]
    exact hnew _ (List.getElem_mem hnl)

/-- **C98 fails, seeds near imposed points.** In the example of the square, with any useful draws on the sharp edges, one point with radius 10 is imposed and becomes a seed.  There are rounds with which the
run ends and there is a seed at distance 3 from that point, which is neither a surface seed nor on a sharp edge nor the imposed one. -/
theorem C98_not_removed_false (vs : Nat → Bool → List (Nat → ℝ)) (ys : Nat → Bool → List (ℝ × ℝ)) (hd : AllDrawsOK sqF vs ys) (hy : ys 0 false ≠ []) (us : Nat → ℝ) (generate : Bool)
    {threads : Nat} (ht : 1 ≤ threads) :
    ∃ (inputs : List RoundInput) (N : Nat) (out : RunResult), (∀ inp ∈ inputs, inp.OK) ∧
      ImposeOK sqF (1 / 4) sqSeeds (some [impPt]) ⟨vs, ys, fun t => if t = 0 then 1 else 0, [0, 0], inputs, us⟩ ∧
      (∀ lf, N ≤ lf → interiorRun id sqF (1 / 4) 1 lf threads (some [impPt]) generate ⟨vs, ys, fun t => if t = 0 then 1 else 0, [0, 0], inputs, us⟩ sqSeeds = some (some out)) ∧
      MatchedSeed out.seeds impPt ∧ ∃ b ∈ out.seeds, euclid 3 impPt b.x = 3 ∧ impPt 3 = 10 ∧ (∀ a ∈ sqSeeds, 1 < euclid 3 b.x a.x) ∧ OutsideOf b.x sqF.edges ∧ OutsideOf b.x sqF.corners := by
  obtain ⟨xs, added, N1, e1, hl, hx, hne, ha⟩ := sq_run vs ys hd hy
  have hx1 : xs.length = 1 := by rw [hl]; simp [sqSeeds]
  have ha1 : 0 < added.length := List.length_pos_iff.2 hne
  have hcl : (xs ++ added).length = 1 + added.length := by rw [List.length_append, hx1]
  have hc : SqCrit (xs ++ added) := by
    refine ⟨⟨xs[0], ?_, (hx _ (List.getElem_mem (by omega))).1, (hx _ (List.getElem_mem (by omega))).2.1⟩, by omega, fun a hm => ?_⟩
    · rw [List.getElem?_append_left (by omega)]
      exact List.getElem?_eq_getElem (by omega)
    · rcases List.mem_append.1 hm with hm | hm
      · obtain ⟨x1, x2, x3⟩ := hx a hm
        exact ⟨x3, by rw [x2]; norm_num, x2.le, .inl ⟨x1, x2⟩⟩
      · obtain ⟨g1, -, g2, g3, g4⟩ := ha a hm
        exact ⟨g4, g2, g3, .inr g1⟩
  obtain ⟨inputs, s3, N2, hi, e2, ⟨p, hp, hpx⟩, b, hb, hb0, hb1, hb2⟩ := sq_front hc ht
  have hne3 : s3 ≠ [] := by rintro rfl; simp at hb
  obtain ⟨r, er, -, r2, -⟩ := finish_imposed (ρ := id) (n := sqSeeds.length) (crit := (xs ++ added).length) (m := (xs ++ added ++ [(⟨impPt, 10, 1⟩ : SeedRec)]).length) (pts := [impPt]) (generate := generate) (us := us)
    hne3 (by intro x hx'; rw [List.mem_singleton.1 hx']; norm_num [impPt])
  have hprot : (xs ++ added).length + 1 < (xs ++ added).length + ((xs ++ added ++ [(⟨impPt, 10, 1⟩ : SeedRec)]).length - sqSeeds.length) := by
    rw [List.length_append (as := xs ++ added), hcl]
    simp only [sqSeeds, List.length_cons, List.length_nil]
    omega
  obtain ⟨p', hp', hpx', -⟩ := r2 _ p (by omega) hp
  obtain ⟨b', hb', hbx', -⟩ := r2 _ b hprot hb
  refine ⟨inputs, max N1 N2, r, hi, ?_, fun lf hf => ?_, ⟨p', List.mem_of_getElem? hp', ?_⟩, b', List.mem_of_getElem? hb', ?_, by norm_num [impPt], ?_, ?_, ?_⟩
  · intro pts hpts
    obtain rfl := Option.some.inj hpts
    refine ⟨by intro x hx'; rw [List.mem_singleton.1 hx']; norm_num [impPt], one_counter.1, 1, fun crit N hN vs' hv => ?_⟩
    have : crit = xs ++ added := Option.some.inj ((hN (max N N1) (le_max_left _ _)).symm.trans (e1 _ (le_max_right _ _)))
    subst this
    rw [sq_verdict hc hv]
    exact one_split
  · unfold interiorRun
    simp only [e1 lf (by omega), imposeStage, sq_impose hc, e2 lf (by omega), er, Option.map_some]
  · rw [hpx', hpx, euclid_self]; norm_num
  · rw [hbx']
    exact euclid3_eq (by norm_num) (by rw [hb0, hb1, hb2]; norm_num [impPt])
  · intro a ha'
    have : euclid 3 b.x (ptN 100 1 0) = 2 := euclid3_eq (by norm_num) (by rw [hb0, hb1, hb2]; norm_num [ptN])
    rw [List.mem_singleton.1 ha', hbx', this]
    norm_num
  all_goals
    intro q hq
    have := (sq_outside (x := b.x) hb0 hb2 (by rw [hb1]; norm_num) q (by simp [hq])).2
    rw [hbx']
    linarith

/-- The hypotheses of `C98_not_removed_false` can be met, and `C98_interior_run_partial` applies to a run with an imposed point that ends. -/
example : ∃ (inputs : List RoundInput) (N : Nat) (out : RunResult), ∀ lf, N ≤ lf →
    interiorRun id sqF (1 / 4) 1 lf 4 (some [impPt]) true ⟨fun _ _ => [ptN 0 0 1], fun _ _ => [(1, 0), (3 / 5, 4 / 5)], fun t => if t = 0 then 1 else 0, [0, 0], inputs, fun _ => 0⟩ sqSeeds = some (some out) := by
  obtain ⟨inputs, N, out, -, -, h, -⟩ := C98_not_removed_false _ _ sq_draws (by simp) (fun _ => 0) true (threads := 4) (by norm_num)
  exact ⟨inputs, N, out, h⟩

end VoroCrust
