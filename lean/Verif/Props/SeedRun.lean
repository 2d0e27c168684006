import Verif.Props.Seeds

/-! # Surface seeds (C39): the whole run -/

namespace VoroCrust

open Classical

/-- What the run has done so far for the triples in `done`. -/
structure SeedProgress (Z : SphereSet) (env : SeedEnv) (done : List (Nat × Nat × Nat)) (us ls : List (Nat → ℝ)) (s : SeedRun) : Prop where
  stored : SeedsStored env.rb (SeedPair Z env.face) us ls s.up s.lo
  complete : s.slivers = [] → ∀ t ∈ done, PairStored Z us ls t.1 t.2.1 t.2.2
  reason : s.slivers ≠ [] → ∃ t ∈ done, NearFourth Z t.1 t.2.1 t.2.2
  resolved : ∀ q ∈ s.slivers, ∃ cs : List Nat, cs[(env.resolve cs).1]? = some q.1 ∧ q.2 = (env.resolve cs).2

theorem SeedProgress.skip {Z : SphereSet} {env : SeedEnv} {done : List (Nat × Nat × Nat)} {us ls : List (Nat → ℝ)} {s s' : SeedRun} (h : SeedProgress Z env done us ls s)
    {t : Nat × Nat × Nat} (e1 : s'.slivers = s.slivers) (e2 : s'.up = s.up) (e3 : s'.lo = s.lo) (hc : s.slivers = [] → PairStored Z us ls t.1 t.2.1 t.2.2) :
    SeedProgress Z env (done ++ [t]) us ls s' := by
  refine ⟨by rw [e2, e3]; exact h.stored, fun hs q hq => ?_, fun hs => ?_, fun q hq => h.resolved q (by rw [← e1]; exact hq)⟩
  · rw [e1] at hs
    rcases List.mem_append.1 hq with hq | hq
    · exact h.complete hs q hq
    · rw [List.mem_singleton.1 hq]; exact hc hs
  · rw [e1] at hs
    obtain ⟨q, hq, hh⟩ := h.reason hs
    exact ⟨q, by simp [hq], hh⟩

theorem seedTriple_spec {Z : SphereSet} {L : ℝ} {env : SeedEnv} (hZ : Z.OK L) {t : Nat × Nat × Nat} (ht : MeetingTriple Z t.1 t.2.1 t.2.2)
    (hw : WideTriple (Z.at t.1) (Z.at t.2.1) (Z.at t.2.2))
    (hlucky : ∀ n, powerVertexN 3 3 (tripleC (Z.at t.1) (Z.at t.2.1) (Z.at t.2.2)) (tripleR (Z.at t.1) (Z.at t.2.1) (Z.at t.2.2)) (env.dart n) ≠ some none)
    {done : List (Nat × Nat × Nat)} {s : SeedRun} {us ls : List (Nat → ℝ)} (h : SeedProgress Z env done us ls s) :
    ∃ s' us' ls', seedTriple Z L env t s = some s' ∧ SeedProgress Z env (done ++ [t]) us' ls' s' := by
  have hj : t.2.1 < Z.total := lt_trans ht.jk ht.last
  have hi : t.1 < Z.total := lt_trans ht.ij hj
  have ri := hZ.radius hi
  obtain ⟨o, eo, ho⟩ := powerVertex_triple hw.spread (env.dart s.calls)
  have hne : o ≠ none := fun hn => hlucky s.calls (by rw [eo, hn])
  obtain ⟨pv, rfl⟩ := Option.ne_none_iff_exists'.1 hne
  obtain ⟨hp, hpu⟩ := ho pv rfl
  have eo' : powerVertexN 3 3 (fun i => if i = 0 then Z.at t.1 else if i = 1 then Z.at t.2.1 else Z.at t.2.2)
      (fun i => if i = 0 then Z.at t.1 3 else if i = 1 then Z.at t.2.1 3 else Z.at t.2.2 3) (env.dart s.calls) = some (some pv) := eo
  unfold seedTriple
  simp only [eo', distance_eq]
  obtain ⟨n1, n2, n3, -⟩ := seedNormal_spec hw (env.face t.1)
  by_cases hh : euclid 3 pv (Z.at t.1) > Z.at t.1 3 - 1e-10
  · rw [if_pos hh]
    refine ⟨_, us, ls, rfl, h.skip rfl rfl rfl fun _ => ?_⟩
    intro m w x y h1 h2 h3 h4 h5 h6 h7 h8
    obtain ⟨hm, -⟩ := pair_unique hZ ht hw hpu h1 h2 h3 h4 h5 h6 n1 n2 n3 (r := 0) rfl
    rw [euclid_congr3 hm (fun _ _ => rfl)] at h6
    exact absurd hh (not_lt.2 h6)
  · rw [if_neg hh]
    push Not at hh
    by_cases hA : triArea (centreTri (Z.at t.1) (Z.at t.2.1) (Z.at t.2.2)) < 1e-10
    · rw [if_pos hA]
      refine ⟨_, us, ls, rfl, h.skip rfl rfl rfl fun _ => ?_⟩
      intro m w x y h1 h2 h3 h4 h5 h6 h7 h8
      exact absurd hA (not_lt.2 h7)
    · rw [if_neg hA]
      obtain ⟨v, hv⟩ : ∃ v, v = Real.sqrt (Z.at t.1 3 * Z.at t.1 3 - euclid 3 pv (Z.at t.1) * euclid 3 pv (Z.at t.1)) := ⟨_, rfl⟩
      obtain ⟨r, hr⟩ : ∃ r, r = min (min (Z.at t.1 3) (Z.at t.2.1 3)) (Z.at t.2.2 3) := ⟨_, rfl⟩
      obtain ⟨n, hn⟩ : ∃ n, n = seedNormal (Z.at t.1) (Z.at t.2.1) (Z.at t.2.2) (env.face t.1) := ⟨_, rfl⟩
      rw [← hv, ← hr, ← hn]
      obtain ⟨u, hu⟩ : ∃ u, u = seedAt pv v n.1 r := ⟨_, rfl⟩
      obtain ⟨l, hl⟩ : ∃ l, l = seedAt pv (-v) n.1 r := ⟨_, rfl⟩
      rw [← hu, ← hl]
      rw [← hn] at n1 n2 n3
      obtain ⟨onu, onl, hpair⟩ := seedPair_of hZ env.face ht hw hp hh hv hn hu hl
      obtain ⟨cu, cl, cs, ec, hcu, hcl, hcu', hcl', hcs⟩ := coverPair_spec hZ t.1 t.2.1 t.2.2 hi hj ht.last u l
      rw [ec]
      simp only
      -- the pair of any mirror pair
      have huniq : ∀ m w x y : Nat → ℝ, InPlane (Z.at t.1) (Z.at t.2.1) (Z.at t.2.2) m → ip 3 w (Z.at t.2.1 - Z.at t.1) = 0 → ip 3 w (Z.at t.2.2 - Z.at t.1) = 0 →
          (∀ d, d < 3 → x d = m d + w d ∧ y d = m d - w d) → OnThree Z t.1 t.2.1 t.2.2 x → euclid 3 m (Z.at t.1) ≤ Z.at t.1 3 - 1e-10 →
          (∀ d, d < 3 → u d = x d ∧ l d = y d) ∨ ∀ d, d < 3 → u d = y d ∧ l d = x d := by
        intro m w x y h1 h2 h3 h4 h5 h6
        have := (pair_unique hZ ht hw hpu h1 h2 h3 h4 h5 h6 n1 n2 n3 (r := r) hv).2
        rw [← hu, ← hl] at this
        exact this
      -- a mirror pair free of other spheres is not covered
      have hfree : ∀ m w x y : Nat → ℝ, InPlane (Z.at t.1) (Z.at t.2.1) (Z.at t.2.2) m → ip 3 w (Z.at t.2.1 - Z.at t.1) = 0 → ip 3 w (Z.at t.2.2 - Z.at t.1) = 0 →
          (∀ d, d < 3 → x d = m d + w d ∧ y d = m d - w d) → OnThree Z t.1 t.2.1 t.2.2 x → euclid 3 m (Z.at t.1) ≤ Z.at t.1 3 - 1e-10 →
          (∀ s, s < Z.total → s ≠ t.1 → s ≠ t.2.1 → s ≠ t.2.2 → Z.at s 3 + 1e-10 ≤ euclid 3 x (Z.at s) ∧ Z.at s 3 + 1e-10 ≤ euclid 3 y (Z.at s)) →
          cu = false ∧ cl = false := by
        intro m w x y h1 h2 h3 h4 h5 h6 h8
        rcases huniq m w x y h1 h2 h3 h4 h5 h6 with hq | hq
        · refine ⟨hcu' fun q a1 a2 a3 a4 => ?_, hcl' fun q a1 a2 a3 a4 => ?_⟩
          · rw [euclid_congr3 (fun d hd => (hq d hd).1) (fun _ _ => rfl)]; exact (h8 q a1 a2 a3 a4).1
          · rw [euclid_congr3 (fun d hd => (hq d hd).2) (fun _ _ => rfl)]; exact (h8 q a1 a2 a3 a4).2
        · refine ⟨hcu' fun q a1 a2 a3 a4 => ?_, hcl' fun q a1 a2 a3 a4 => ?_⟩
          · rw [euclid_congr3 (fun d hd => (hq d hd).1) (fun _ _ => rfl)]; exact (h8 q a1 a2 a3 a4).2
          · rw [euclid_congr3 (fun d hd => (hq d hd).2) (fun _ _ => rfl)]; exact (h8 q a1 a2 a3 a4).1
      by_cases hne' : cu ≠ cl
      · rw [if_pos hne']
        have hcomp : PairStored Z us ls t.1 t.2.1 t.2.2 := by
          intro m w x y h1 h2 h3 h4 h5 h6 h7 h8
          obtain ⟨f1, f2⟩ := hfree m w x y h1 h2 h3 h4 h5 h6 h8
          exact absurd (f1.trans f2.symm) hne'
        split
        · exact ⟨_, us, ls, rfl, h.skip rfl rfl rfl fun _ => hcomp⟩
        · next sp hsp =>
          refine ⟨_, us, ls, rfl, h.stored, fun hs => absurd hs (noteSliver_ne_nil _ _ _), fun _ => ⟨t, by simp, ?_⟩, fun q hq => ?_⟩
          · by_contra hno
            unfold NearFourth at hno
            push Not at hno
            exact hne' ((hcu' fun q a1 a2 a3 a4 => hno u q onu a1 a2 a3 a4).trans (hcl' fun q a1 a2 a3 a4 => hno l q onl a1 a2 a3 a4).symm)
          · rcases noteSliver_mem hq with hq | hq
            · rw [hq]; exact ⟨_, hsp, rfl⟩
            · exact h.resolved q hq
      · rw [if_neg hne']
        by_cases hadd : s.slivers = [] ∧ cu = false ∧ cl = false
        · rw [if_pos hadd]
          have hg := hpair hr fun q a1 a2 a3 a4 => ⟨hcu hadd.2.1 q a1 a2 a3 a4, hcl hadd.2.2 q a1 a2 a3 a4⟩
          obtain ⟨up', lo', us', ls', e, hst, pu, pl, ⟨yu, mu, su⟩, ⟨yl, ml, sl⟩⟩ := addPair_spec h.stored hg
          rw [e]
          refine ⟨_, us', ls', rfl, hst, fun hs q hq => ?_, fun hs => absurd hadd.1 hs, fun q hq => h.resolved q hq⟩
          rcases List.mem_append.1 hq with hq | hq
          · exact (h.complete hadd.1 q hq).mono pu pl
          · rw [List.mem_singleton.1 hq]
            intro m w x y h1 h2 h3 h4 h5 h6 h7 h8
            refine ⟨yu, mu, yl, ml, ?_⟩
            rcases huniq m w x y h1 h2 h3 h4 h5 h6 with hq | hq
            · left
              rw [← euclid_congr3 (fun d hd => (hq d hd).1) (fun _ _ => rfl), ← euclid_congr3 (fun d hd => (hq d hd).2) (fun _ _ => rfl)]
              exact ⟨su.dist, sl.dist⟩
            · right
              rw [← euclid_congr3 (fun d hd => (hq d hd).1) (fun _ _ => rfl), ← euclid_congr3 (fun d hd => (hq d hd).2) (fun _ _ => rfl)]
              exact ⟨su.dist, sl.dist⟩
        · rw [if_neg hadd]
          refine ⟨_, us, ls, rfl, h.skip rfl rfl rfl fun hs => ?_⟩
          intro m w x y h1 h2 h3 h4 h5 h6 h7 h8
          obtain ⟨f1, f2⟩ := hfree m w x y h1 h2 h3 h4 h5 h6 h8
          exact absurd ⟨hs, f1, f2⟩ hadd

/-! ## The loops -/

theorem meets_iff (x y : Nat → ℝ) : meets x y ↔ euclid 3 x y ≤ x 3 + y 3 - 1e-10 := by
  unfold meets; rw [distance_eq]; exact not_lt

theorem mem_seedTriples {Z : SphereSet} {i : Nat} {near : List Nat} {t : Nat × Nat × Nat} :
    t ∈ seedTriples Z i near ↔ t.1 = i ∧ t.2.1 ∈ near ∧ t.2.2 ∈ near ∧ i < t.2.1 ∧ t.2.1 < t.2.2 ∧ meets (Z.at i) (Z.at t.2.1) ∧ meets (Z.at i) (Z.at t.2.2) ∧
      meets (Z.at t.2.1) (Z.at t.2.2) := by
  obtain ⟨a, b, c⟩ := t
  unfold seedTriples
  simp only [List.mem_flatMap]
  constructor
  · rintro ⟨j, hj, h⟩
    split at h
    · simp at h
    · next h1 =>
      split at h
      · simp at h
      · next h2 =>
        push Not at h2
        obtain ⟨k, hk, h⟩ := List.mem_filterMap.1 h
        split at h
        · simp at h
        · next h3 =>
          split at h
          · simp at h
          · next h4 =>
            split at h
            · simp at h
            · next h5 =>
              split at h
              · simp at h
              · next h6 =>
                simp only [Option.some.injEq, Prod.mk.injEq] at h
                obtain ⟨rfl, rfl, rfl⟩ := h
                exact ⟨rfl, hj, hk, by omega, by omega, h2, not_not.1 h5, not_not.1 h6⟩
  · rintro ⟨rfl, hj, hk, h1, h2, h3, h4, h5⟩
    refine ⟨b, hj, ?_⟩
    rw [if_neg (by omega), if_neg (not_not.2 h3)]
    refine List.mem_filterMap.2 ⟨c, hk, ?_⟩
    rw [if_neg (by omega), if_neg (by omega), if_neg (not_not.2 h4), if_neg (not_not.2 h5)]

theorem overlapping_of {P : PointStore ℝ} {ln : Links} {L : ℝ} (hL0 : 0 ≤ L) (hL1 : L < 1) (h : TreeOrEmpty P ln L) (x : Nat → ℝ) {rx : ℝ} (hrx : 0 ≤ rx) :
    ∃ l, overlappingSpheres P ln L x rx = some l ∧ (∀ s ∈ l, s < P.num) ∧ ∀ s, s < P.num → euclid 3 x (P.pts s) < rx + P.pts s 3 → s ∈ l := by
  rcases h with h | ⟨h, hlip⟩
  · refine ⟨[], by unfold overlappingSpheres; rw [if_pos h], by simp, fun s hs => by omega⟩
  · obtain ⟨l, e, -, h1, h2⟩ := C28_overlapping_spheres P ln h L hL0 hL1 x rx hrx
    exact ⟨l, e, fun s hs => (h1 s hs).1, h2 hlip⟩

theorem nearSpheres_spec {Z : SphereSet} {L : ℝ} (h : Z.OK L) {i : Nat} (hi : i < Z.S.num) :
    ∃ near, nearSpheres Z L i = some near ∧ (∀ q ∈ near, q < Z.total) ∧ ∀ q, q < Z.total → euclid 3 (Z.at i) (Z.at q) < Z.at i 3 + Z.at q 3 → q ∈ near := by
  have ai : Z.at i = Z.S.pts i := by unfold SphereSet.at; rw [if_pos hi]
  have ri := h.radius (i := i) (by unfold SphereSet.total; omega)
  rw [ai] at ri
  obtain ⟨s, e1, s1, s2⟩ := overlapping_of h.nonneg h.lt h.s (Z.S.pts i) ri
  obtain ⟨e, e2, ee1, ee2⟩ := overlapping_of h.nonneg h.lt h.e (Z.S.pts i) ri
  obtain ⟨c, e3, c1, c2⟩ := overlapping_of h.nonneg h.lt h.c (Z.S.pts i) ri
  refine ⟨_, by unfold nearSpheres; rw [e1, e2, e3], fun q hq => ?_, fun q hq hd => ?_⟩
  · unfold SphereSet.total
    simp only [List.mem_append, List.mem_map] at hq
    rcases hq with (hq | ⟨t, ht, rfl⟩) | ⟨t, ht, rfl⟩
    · have := s1 q hq; omega
    · have := ee1 t ht; omega
    · have := c1 t ht; omega
  · unfold SphereSet.total at hq
    rw [ai] at hd
    simp only [List.mem_append, List.mem_map]
    by_cases w1 : q < Z.S.num
    · left; left
      unfold SphereSet.at at hd; rw [if_pos w1] at hd
      exact s2 q w1 hd
    · by_cases w2 : q < Z.S.num + Z.E.num
      · left; right
        unfold SphereSet.at at hd; rw [if_neg w1, if_pos w2] at hd
        exact ⟨q - Z.S.num, ee2 _ (by omega) hd, by omega⟩
      · right
        unfold SphereSet.at at hd; rw [if_neg w1, if_neg w2] at hd
        exact ⟨q - Z.S.num - Z.E.num, c2 _ (by omega) hd, by omega⟩

/-- What is assumed of the spheres and the random directions: overlapping triples are wide, and the power vertex is always found. -/
structure SeedEnv.Works (Z : SphereSet) (env : SeedEnv) : Prop where
  wide : ∀ i j k, MeetingTriple Z i j k → WideTriple (Z.at i) (Z.at j) (Z.at k)
  found : ∀ i j k, MeetingTriple Z i j k → ∀ n, powerVertexN 3 3 (tripleC (Z.at i) (Z.at j) (Z.at k)) (tripleR (Z.at i) (Z.at j) (Z.at k)) (env.dart n) ≠ some none

theorem seedTripleLoop_spec {Z : SphereSet} {L : ℝ} {env : SeedEnv} (hZ : Z.OK L) (hW : env.Works Z) (ts : List (Nat × Nat × Nat)) (hts : ∀ t ∈ ts, MeetingTriple Z t.1 t.2.1 t.2.2)
    {done : List (Nat × Nat × Nat)} {s : SeedRun} {us ls : List (Nat → ℝ)} (h : SeedProgress Z env done us ls s) :
    ∃ s' us' ls', seedTripleLoop Z L env ts s = some s' ∧ SeedProgress Z env (done ++ ts) us' ls' s' := by
  induction ts generalizing done s us ls with
  | nil => exact ⟨s, us, ls, rfl, by simpa using h⟩
  | cons t ts ih =>
    have ht := hts t (by simp)
    obtain ⟨s1, us1, ls1, e1, h1⟩ := seedTriple_spec (L := L) hZ ht (hW.wide _ _ _ ht) (hW.found _ _ _ ht) h
    obtain ⟨s2, us2, ls2, e2, h2⟩ := ih (fun t ht => hts t (by simp [ht])) h1
    refine ⟨s2, us2, ls2, ?_, by simpa using h2⟩
    unfold seedTripleLoop; rw [e1]; exact e2

theorem seedSphereLoop_spec {Z : SphereSet} {L : ℝ} {env : SeedEnv} (hZ : Z.OK L) (hW : env.Works Z) (is : List Nat) (his : ∀ i ∈ is, i < Z.S.num)
    {done : List (Nat × Nat × Nat)} {s : SeedRun} {us ls : List (Nat → ℝ)} (h : SeedProgress Z env done us ls s) :
    ∃ s' us' ls' more, seedSphereLoop Z L env is s = some s' ∧ SeedProgress Z env (done ++ more) us' ls' s' ∧ (∀ t ∈ more, MeetingTriple Z t.1 t.2.1 t.2.2) ∧
      ∀ i j k, i ∈ is → MeetingTriple Z i j k → (i, j, k) ∈ more := by
  induction is generalizing done s us ls with
  | nil => exact ⟨s, us, ls, [], rfl, by simpa using h, by simp, by simp⟩
  | cons i is ih =>
    have hi := his i (by simp)
    obtain ⟨near, en, hn1, hn2⟩ := nearSpheres_spec hZ hi
    have hts : ∀ t ∈ seedTriples Z i near, MeetingTriple Z t.1 t.2.1 t.2.2 := by
      intro t ht
      obtain ⟨rfl, hj, hk, h1, h2, h3, h4, h5⟩ := mem_seedTriples.1 ht
      exact ⟨hi, h1, h2, hn1 _ hk, (meets_iff _ _).1 h3, (meets_iff _ _).1 h4, (meets_iff _ _).1 h5⟩
    obtain ⟨s1, us1, ls1, e1, h1⟩ := seedTripleLoop_spec (L := L) hZ hW _ hts h
    obtain ⟨s2, us2, ls2, more, e2, h2, hm, hc⟩ := ih (fun i hi => his i (by simp [hi])) h1
    refine ⟨s2, us2, ls2, seedTriples Z i near ++ more, ?_, by simpa using h2, ?_, ?_⟩
    · unfold seedSphereLoop; rw [en]; simp only; rw [e1]; exact e2
    · intro t ht
      rcases List.mem_append.1 ht with ht | ht
      · exact hts t ht
      · exact hm t ht
    · intro a j k ha ht
      rcases List.mem_cons.1 ha with rfl | ha
      · refine List.mem_append_left _ (mem_seedTriples.2 ⟨rfl, ?_, ?_, ht.ij, ht.jk, (meets_iff _ _).2 ht.meet_ij, (meets_iff _ _).2 ht.meet_ik, (meets_iff _ _).2 ht.meet_jk⟩)
        · exact hn2 _ (lt_trans ht.jk ht.last) (lt_of_le_of_lt ht.meet_ij (by norm_num))
        · exact hn2 _ ht.last (lt_of_le_of_lt ht.meet_ik (by norm_num))
      · exact List.mem_append_right _ (hc a j k ha ht)

/-! ## Seeds that are too close -/

theorem minRadius_spec (S : PointStore ℝ) (is : List Nat) (m : WithTop ℝ) :
    minRadius S is m ≤ m ∧ (∀ i ∈ is, i < S.num → minRadius S is m ≤ (S.pts i 3 : WithTop ℝ)) ∧ (minRadius S is m = m ∨ ∃ i ∈ is, i < S.num ∧ minRadius S is m = (S.pts i 3 : WithTop ℝ)) := by
  induction is generalizing m with
  | nil => exact ⟨le_rfl, by simp, Or.inl rfl⟩
  | cons i is ih =>
    unfold minRadius
    by_cases hc : i < S.num ∧ (S.pts i 3 : WithTop ℝ) < m
    · rw [if_pos hc]
      obtain ⟨h1, h2, h3⟩ := ih (S.pts i 3 : WithTop ℝ)
      refine ⟨h1.trans hc.2.le, fun j hj hjn => ?_, Or.inr ?_⟩
      · rcases List.mem_cons.1 hj with rfl | hj
        · exact h1
        · exact h2 j hj hjn
      · rcases h3 with h3 | ⟨j, hj, hjn, e⟩
        · exact ⟨i, by simp, hc.1, h3⟩
        · exact ⟨j, by simp [hj], hjn, e⟩
    · rw [if_neg hc]
      obtain ⟨h1, h2, h3⟩ := ih m
      refine ⟨h1, fun j hj hjn => ?_, ?_⟩
      · rcases List.mem_cons.1 hj with rfl | hj
        · have : m ≤ (S.pts j 3 : WithTop ℝ) := by
            by_contra hlt; exact hc ⟨hjn, not_le.1 hlt⟩
          exact h1.trans this
        · exact h2 j hj hjn
      · rcases h3 with h3 | ⟨j, hj, hjn, e⟩
        · exact Or.inl h3
        · exact Or.inr ⟨j, by simp [hj], hjn, e⟩

/-- Seed `i` has another seed of its tree within a hundredth of the radius of its first sphere. -/
def HasClose (S : PointStore ℝ) (t : SeedTree) (i : Nat) : Prop :=
  ∃ a q, t.attr[i]? = some a ∧ q < t.tree.num ∧ q ≠ i ∧ euclid 3 (t.tree.pts i) (t.tree.pts q) < 1e-2 * S.pts a.s1 3

/-- All other seeds of the tree are at least a hundredth of the radius of one of the first two spheres of seed `i` away. -/
def AllFar (S : PointStore ℝ) (t : SeedTree) (i : Nat) : Prop :=
  ∀ a q, t.attr[i]? = some a → q < t.tree.num → q ≠ i → ∃ b, (b = a.s1 ∨ b = a.s2) ∧ b < S.num ∧ 1e-2 * S.pts b 3 ≤ euclid 3 (t.tree.pts i) (t.tree.pts q)

theorem closeSeeds_spec {rb : Nat → Nat → Bool} {S : PointStore ℝ} (hS : ∀ i, i < S.num → 0 ≤ S.pts i 3) {t : SeedTree} {us : List (Nat → ℝ)} (h : t.Holds rb us)
    (hattr : ∀ (i : Nat) (a : SeedAttr), t.attr[i]? = some a → a.s1 < S.num) (is : List Nat) (his : ∀ i ∈ is, i < us.length) (s : (Nat → Bool) × Bool) :
    ∃ m, closeSeeds S t is s = some m ∧ (m.2 = true → s.2 = true ∨ ∃ i ∈ is, HasClose S t i) ∧ (m.2 = false → s.2 = false ∧ ∀ i ∈ is, AllFar S t i) := by
  induction is generalizing s with
  | nil => exact ⟨s, rfl, fun h => Or.inl h, fun h => ⟨h, by simp⟩⟩
  | cons i is ih =>
    have hi := his i (by simp)
    have hne : us ≠ [] := by rintro rfl; simp at hi
    obtain ⟨a, ha⟩ : ∃ a, t.attr[i]? = some a := ⟨_, List.getElem?_eq_getElem (by rw [h.attr]; exact hi)⟩
    have ha1 := hattr i a ha
    obtain ⟨c, b, eq, hres⟩ := C06_closest_is_exhaustive _ _ (h.real hne) (fun k => decide (k ≠ i)) (t.tree.pts i) false ⊤ le_top
    obtain ⟨-, mr2, mr3⟩ := minRadius_spec S (checkedSpheres a) ⊤
    have hm1 := mr2 a.s1 (by simp [checkedSpheres]) ha1
    obtain ⟨r, er⟩ : ∃ r : ℝ, minRadius S (checkedSpheres a) ⊤ = (r : WithTop ℝ) := by
      cases e : minRadius S (checkedSpheres a) ⊤ with
      | top => rw [e] at hm1; simp at hm1
      | coe r => exact ⟨r, rfl⟩
    have hr1 : r ≤ S.pts a.s1 3 := by rw [er, WithTop.coe_le_coe] at hm1; exact hm1
    obtain ⟨b', hb', hbn, hbr⟩ : ∃ b', (b' = a.s1 ∨ b' = a.s2) ∧ b' < S.num ∧ r = S.pts b' 3 := by
      rcases mr3 with e | ⟨j, hj, hjn, e⟩
      · rw [er] at e; simp at e
      · rw [er, WithTop.coe_inj] at e
        refine ⟨j, ?_, hjn, e⟩
        simpa [checkedSpheres] using hj
    have hr0 : 0 ≤ r := by rw [hbr]; exact hS _ hbn
    have hclose : (tooClose b (minRadius S (checkedSpheres a) ⊤) = true → HasClose S t i) ∧ (tooClose b (minRadius S (checkedSpheres a) ⊤) = false → AllFar S t i) := by
      rw [er]
      rcases hres with ⟨c1, c2, c3, -, c5⟩ | ⟨-, c2, c3⟩
      · subst c3
        have e : tooClose ((euclid 3 (t.tree.pts i) (t.tree.pts c) : ℝ) : WithTop ℝ) ((r : ℝ) : WithTop ℝ) = if r = 0 then false else decide (euclid 3 (t.tree.pts i) (t.tree.pts c) / r < 1e-2) := rfl
        have hd := euclid_nonneg 3 (t.tree.pts i) (t.tree.pts c)
        constructor
        · intro hh
          rw [show tooClose _ _ = _ from e] at hh
          split at hh
          · simp at hh
          · next hrn =>
            have hrp : 0 < r := lt_of_le_of_ne hr0 (Ne.symm hrn)
            have := (div_lt_iff₀ hrp).1 (of_decide_eq_true hh)
            exact ⟨a, c, ha, c1, of_decide_eq_true c2, by nlinarith⟩
        · intro hh a' q ha' hq hqi
          rw [ha] at ha'; cases ha'
          refine ⟨b', hb', hbn, ?_⟩
          have hmin := c5 q hq (by simpa using hqi)
          rw [← hbr]
          rw [show tooClose _ _ = _ from e] at hh
          split at hh
          · next hrn => rw [hrn]; simp; exact euclid_nonneg _ _ _
          · next hrn =>
            have hrp : 0 < r := lt_of_le_of_ne hr0 (Ne.symm hrn)
            have h2 := not_lt.1 (of_decide_eq_false hh)
            rw [le_div_iff₀ hrp] at h2
            exact h2.trans hmin
      · have hb : b = ⊤ := c2
        subst hb
        constructor
        · intro hh; exact absurd hh (by simp [tooClose])
        · intro _ a' q ha' hq hqi
          exact absurd (c3 q hq (by simpa using hqi)) (by simp)
    unfold closeSeeds
    rw [ha]; simp only; rw [eq]; simp only
    split
    · next htc =>
      obtain ⟨m, e, h1, h2⟩ := ih (fun i hi => his i (by simp [hi])) (fun q => s.1 q || (decide (q < S.num) && (checkedSpheres a).contains q), true)
      exact ⟨m, e, fun _ => Or.inr ⟨i, by simp, hclose.1 htc⟩, fun hm => by simp at h2; rw [h2] at hm; cases hm⟩
    · next htc =>
      obtain ⟨m, e, h1, h2⟩ := ih (fun i hi => his i (by simp [hi])) s
      refine ⟨m, e, fun hm => ?_, fun hm => ⟨(h2 hm).1, fun j hj => ?_⟩⟩
      · rcases h1 hm with h1 | ⟨j, hj, h1⟩
        · exact Or.inl h1
        · exact Or.inr ⟨j, by simp [hj], h1⟩
      · rcases List.mem_cons.1 hj with rfl | hj
        · exact hclose.2 (by simpa using htc)
        · exact (h2 hm).2 j hj

/-! ## Shrinking -/

theorem shrinkSlivers_spec (ns : Nat) (ps : List (Nat × ℝ)) (s : PointStore ℝ × Bool) :
    SameBut s.1 (shrinkSlivers ns ps s).1 ∧ ((shrinkSlivers ns ps s).2 = true ↔ s.2 = true ∨ ∃ p ∈ ps, p.1 < ns) ∧
      ∀ i, radius (shrinkSlivers ns ps s).1 i = radius s.1 i ∨ ∃ p ∈ ps, p.1 = i ∧ radius (shrinkSlivers ns ps s).1 i = p.2 := by
  induction ps generalizing s with
  | nil => exact ⟨SameBut.refl _, by simp [shrinkSlivers], fun i => Or.inl rfl⟩
  | cons p ps ih =>
    unfold shrinkSlivers
    by_cases hp : p.1 < ns
    · rw [if_pos hp]
      obtain ⟨h1, h2, h3⟩ := ih (setAttr s.1 p.1 0 p.2, true)
      refine ⟨(sameBut_setAttr s.1 p.1 p.2).trans h1, ?_, fun i => ?_⟩
      · rw [h2]; simp [hp]
      · rcases h3 i with h3 | ⟨q, hq, e1, e2⟩
        · rw [h3]
          simp only [radius_setAttr]
          split
          · next e => right; exact ⟨p, by simp, e.symm, rfl⟩
          · left; rfl
        · right; exact ⟨q, by simp [hq], e1, e2⟩
    · rw [if_neg hp]
      obtain ⟨h1, h2, h3⟩ := ih s
      refine ⟨h1, ?_, fun i => ?_⟩
      · rw [h2]; simp [hp]
      · rcases h3 i with h3 | ⟨q, hq, e1, e2⟩
        · left; exact h3
        · right; exact ⟨q, by simp [hq], e1, e2⟩

theorem shrinkMarked_spec (mark : Nat → Bool) (is : List Nat) (hnd : is.Nodup) (P : PointStore ℝ) (hd : P.dim = 3) :
    SameBut P (shrinkMarked mark is P) ∧ ∀ i, radius (shrinkMarked mark is P) i = if i ∈ is ∧ mark i = true then radius P i * 0.95 else radius P i := by
  induction is generalizing P with
  | nil => exact ⟨SameBut.refl _, fun i => by simp [shrinkMarked]⟩
  | cons j is ih =>
    obtain ⟨hj, hnd'⟩ := List.nodup_cons.1 hnd
    unfold shrinkMarked
    by_cases hm : mark j = true
    · rw [if_pos hm]
      obtain ⟨h1, h2⟩ := ih hnd' (setAttr P j 0 (P.pts j 3 * 0.95)) hd
      refine ⟨(sameBut_setAttr P j _).trans h1, fun i => ?_⟩
      rw [h2 i]
      simp only [radius_setAttr]
      by_cases hij : i = j
      · subst hij
        rw [if_neg (by simp [hj]), if_pos rfl, if_pos (by simp [hm])]
        unfold radius; rw [hd]
      · rw [if_neg hij]
        simp [hij]
    · rw [if_neg hm]
      obtain ⟨h1, h2⟩ := ih hnd' P hd
      refine ⟨h1, fun i => ?_⟩
      rw [h2 i]
      by_cases hij : i = j
      · subst hij; simp [hm]
      · simp [hij]

/-! ## The property -/

/-- The points of a tree as a list. -/
def SeedTree.points (t : SeedTree) : List (Nat → ℝ) := (List.range t.tree.num).map t.tree.pts

theorem SeedTree.Holds.points {rb : Nat → Nat → Bool} {t : SeedTree} {us : List (Nat → ℝ)} (h : t.Holds rb us) : t.points = us := by
  apply List.ext_getElem
  · simp [SeedTree.points, h.num]
  · intro i h1 h2
    simp [SeedTree.points, h.pts h2]

theorem SeedTree.Holds.far {rb : Nat → Nat → Bool} {t : SeedTree} {us : List (Nat → ℝ)} (h : t.Holds rb us) {p q : Nat} (hp : p < t.tree.num) (hq : q < t.tree.num) (hpq : p ≠ q) :
    1e-10 ≤ euclid 3 (t.tree.pts p) (t.tree.pts q) := by
  rw [h.num] at hp hq
  rw [h.pts hp, h.pts hq]
  have := List.pairwise_iff_getElem.1 h.apart
  rcases Nat.lt_or_gt_of_ne hpq with hlt | hlt
  · rw [euclid_comm]; exact this p q hp hq hlt
  · exact this q p hq hp hlt

/-- Two pairs with upper seeds, or lower seeds, closer than a hundredth of a radius. -/
def CrowdedPairs (Z : SphereSet) (face : Nat → Fin 3 → V3) : Prop :=
  ∃ u l u' l' i j k i' j' k', SeedPair Z face u l i j k ∧ SeedPair Z face u' l' i' j' k' ∧
    ((1e-10 ≤ euclid 3 u u' ∧ euclid 3 u u' < 1e-2 * Z.at i 3) ∨ (1e-10 ≤ euclid 3 l l' ∧ euclid 3 l l' < 1e-2 * Z.at i 3))

/-- The stored seeds, as used after merging: seed `q` of the merged list has the attributes `a`. -/
structure MergedSeedOK (Z : SphereSet) (face : Nat → Fin 3 → V3) (up lo : SeedTree) (q : Nat) (a : SeedAttr) : Prop where
  exists_partner : a.pair < up.tree.num + lo.tree.num
  other_side : q < up.tree.num ↔ up.tree.num ≤ a.pair
  mirror : ∃ y, (q < up.tree.num → SeedPair Z face (mergedSeed up lo q) y a.s1 a.s2 a.s3) ∧ (up.tree.num ≤ q → SeedPair Z face y (mergedSeed up lo q) a.s1 a.s2 a.s3) ∧
    euclid 3 y (mergedSeed up lo a.pair) < 1e-10

theorem merged_ok {Z : SphereSet} {env : SeedEnv} {us ls : List (Nat → ℝ)} {up lo : SeedTree} (h : SeedsStored env.rb (SeedPair Z env.face) us ls up lo) :
    (up.attr.length = up.tree.num ∧ lo.attr.length = lo.tree.num) ∧ (∀ (q : Nat) (a : SeedAttr), (mergeSeedAttrs up lo)[q]? = some a → MergedSeedOK Z env.face up lo q a) ∧
      ∀ p q, p < up.tree.num + lo.tree.num → q < up.tree.num + lo.tree.num → p ≠ q → (p < up.tree.num ↔ q < up.tree.num) → 1e-10 ≤ euclid 3 (mergedSeed up lo p) (mergedSeed up lo q) := by
  have nu := h.upper.num
  have nl := h.lower.num
  have au := h.upper.attr
  have al := h.lower.attr
  have mu : ∀ {q}, q < up.tree.num → mergedSeed up lo q = up.tree.pts q := fun hq => by unfold mergedSeed; rw [if_pos hq]
  have ml : ∀ {q}, mergedSeed up lo (q + up.tree.num) = lo.tree.pts q := fun {q} => by
    unfold mergedSeed; rw [if_neg (by omega), Nat.add_sub_cancel]
  refine ⟨by omega, fun q a ha => ?_, fun p q hp hq hpq hside => ?_⟩
  · unfold mergeSeedAttrs at ha
    by_cases hq : q < up.attr.length
    · rw [List.getElem?_append_left (by simpa using hq), List.getElem?_map] at ha
      obtain ⟨a', ha', rfl⟩ := Option.map_eq_some_iff.1 ha
      obtain ⟨u, l, y, e1, hg, e2, hs⟩ := h.pairU q a' ha'
      obtain ⟨b1, b2⟩ := List.getElem?_eq_some_iff.1 e1
      obtain ⟨c1, c2⟩ := List.getElem?_eq_some_iff.1 e2
      have hqu : q < up.tree.num := by omega
      refine ⟨by simp only; omega, by simp only; omega, l, fun _ => ?_, fun hle => by omega, ?_⟩
      · rw [mu hqu, h.upper.pts b1, b2]; exact hg
      · simp only; rw [ml, h.lower.pts c1, c2]; exact hs.dist
    · rw [List.getElem?_append_right (by simpa using hq), List.length_map] at ha
      obtain ⟨u, l, y, e1, hg, e2, hs⟩ := h.pairL _ a ha
      obtain ⟨b1, b2⟩ := List.getElem?_eq_some_iff.1 e1
      obtain ⟨c1, c2⟩ := List.getElem?_eq_some_iff.1 e2
      have hc : a.pair < up.tree.num := by omega
      refine ⟨by omega, by omega, u, fun hlt => by omega, fun _ => ?_, ?_⟩
      · have e : mergedSeed up lo q = lo.tree.pts (q - up.attr.length) := by
          unfold mergedSeed; rw [if_neg (by omega), au, nu]
        rw [e, h.lower.pts b1, b2]; exact hg
      · rw [mu hc, h.upper.pts c1, c2]; exact hs.dist
  · by_cases hpu : p < up.tree.num
    · have hqu := hside.1 hpu
      rw [mu hpu, mu hqu]
      exact h.upper.far hpu hqu hpq
    · have hqu : ¬ q < up.tree.num := fun hh => hpu (hside.2 hh)
      unfold mergedSeed
      rw [if_neg hpu, if_neg hqu]
      exact h.lower.far (by omega) (by omega) (by omega)

/-- **C39 (partial).** Spheres in trees with Lipschitz radii, pairwise overlapping triples wide (not nearly on a line), random directions for which the power vertex is found, slivers
resolved on surface spheres (C29).  Then the function is defined, moves no sphere, and of the seeds it leaves:
every seed has a partner that exists and is on the other side; the seed and the mirror image `y` of it in the plane of the centres of its three spheres lie on the boundary of all three
and in the interior of no other sphere, upper seeds on the side the face normal points to (strictly where the triple was reversed); the centres are not on a line; the partner is within `1e-10` of `y`; no two seeds of a side are closer than `1e-10`.
If no sphere is shrunk, every mirror pair of points common to three overlapping spheres that is not in reach of another sphere is stored, and no two seeds of a side are
crowded.  If spheres are shrunk, there are no seeds, and there was a reason: a fourth sphere near the common point of three, or two crowded seeds.
Missing for the full claim: overlapping triples that are not wide, and unlucky directions, where it fails (`C39_close_centres_false`, `C39_unlucky_direction_undefined`). -/
theorem C39_seed_pairs_partial (Z : SphereSet) (L : ℝ) (env : SeedEnv) (hZ : Z.OK L) (hW : env.Works Z)
    (hres : ∀ (cs : List Nat) (sp : Nat), cs[(env.resolve cs).1]? = some sp → sp < Z.S.num) :
    ∃ P b up lo, surfaceSeeds Z L env = some (P, b, up, lo) ∧ SameBut Z.S P ∧
      (up.attr.length = up.tree.num ∧ lo.attr.length = lo.tree.num) ∧
      (∀ (q : Nat) (a : SeedAttr), (mergeSeedAttrs up lo)[q]? = some a → MergedSeedOK Z env.face up lo q a) ∧
      (∀ p q, p < up.tree.num + lo.tree.num → q < up.tree.num + lo.tree.num → p ≠ q → (p < up.tree.num ↔ q < up.tree.num) → 1e-10 ≤ euclid 3 (mergedSeed up lo p) (mergedSeed up lo q)) ∧
      (b = false → P = Z.S ∧ (∀ i j k, MeetingTriple Z i j k → PairStored Z up.points lo.points i j k) ∧ (∀ i, i < up.tree.num → AllFar Z.S up i) ∧
        ∀ i, i < lo.tree.num → AllFar Z.S lo i) ∧
      (b = true → up.tree.num = 0 ∧ lo.tree.num = 0 ∧ ((∃ i j k, MeetingTriple Z i j k ∧ NearFourth Z i j k) ∨ CrowdedPairs Z env.face)) ∧
      ∀ i, i < Z.S.num → radius P i = radius Z.S i ∨ radius P i = radius Z.S i * 0.95 ∨ ∃ cs : List Nat, cs[(env.resolve cs).1]? = some i ∧ radius P i = (env.resolve cs).2 := by
  have h0 : SeedProgress Z env [] [] [] ⟨none, 0, [], SeedTree.empty, SeedTree.empty⟩ :=
    ⟨SeedsStored.start _ _, by simp, fun h => absurd rfl h, by simp⟩
  obtain ⟨s, us, ls, more, e, hp, hm, hc⟩ := seedSphereLoop_spec (L := L) hZ hW (List.range Z.S.num) (fun i hi => List.mem_range.1 hi) h0
  rw [List.nil_append] at hp
  have hrad : ∀ i, i < Z.S.num → 0 ≤ Z.S.pts i 3 := by
    intro i hi
    have := hZ.radius (i := i) (by unfold SphereSet.total; omega)
    unfold SphereSet.at at this; rwa [if_pos hi] at this
  have hstart := merged_ok (SeedsStored.start env.rb (SeedPair Z env.face))
  by_cases hs : s.slivers = []
  · -- seeds are kept unless crowded
    have hat : ∀ i, i < Z.S.num → Z.at i 3 = Z.S.pts i 3 := fun i hi => by unfold SphereSet.at; rw [if_pos hi]
    obtain ⟨m1, e1, t1, f1⟩ := closeSeeds_spec hrad hp.stored.upper (fun i a ha => by obtain ⟨u, l, y, -, hg, -⟩ := hp.stored.pairU i a ha; exact hg.surf)
      (List.range s.up.tree.num) (fun i hi => by rw [← hp.stored.upper.num]; exact List.mem_range.1 hi) (fun _ => false, false)
    obtain ⟨m2, e2, t2, f2⟩ := closeSeeds_spec hrad hp.stored.lower (fun i a ha => by obtain ⟨u, l, y, -, hg, -⟩ := hp.stored.pairL i a ha; exact hg.surf)
      (List.range s.lo.tree.num) (fun i hi => by rw [← hp.stored.lower.num]; exact List.mem_range.1 hi) m1
    by_cases hb : m2.2 = true
    · by_cases hz : Z.S.num = 0
      · -- no surface sphere, no seed
        exfalso
        have noU : s.up.tree.num = 0 := by
          rw [hp.stored.upper.num, ← hp.stored.upper.attr]
          by_contra hne
          obtain ⟨u, l, y, -, hg, -⟩ := hp.stored.pairU 0 _ (List.getElem?_eq_getElem (Nat.pos_of_ne_zero hne))
          have := hg.surf; omega
        have noL : s.lo.tree.num = 0 := by
          rw [hp.stored.lower.num, ← hp.stored.lower.attr]
          by_contra hne
          obtain ⟨u, l, y, -, hg, -⟩ := hp.stored.pairL 0 _ (List.getElem?_eq_getElem (Nat.pos_of_ne_zero hne))
          have := hg.surf; omega
        rcases t2 hb with h1 | ⟨i, hi, -⟩
        · rcases t1 h1 with h1 | ⟨i, hi, -⟩
          · simp at h1
          · rw [noU] at hi; simp at hi
        · rw [noL] at hi; simp at hi
      · have hdim : Z.S.dim = 3 := (hZ.s.resolve_left hz).1.dim
        obtain ⟨q1, q2⟩ := shrinkMarked_spec m2.1 (List.range Z.S.num) List.nodup_range Z.S hdim
        refine ⟨_, true, SeedTree.empty, SeedTree.empty, ?_, q1, hstart.1, hstart.2.1, hstart.2.2, by simp, fun _ => ⟨rfl, rfl, Or.inr ?_⟩, fun i hi => ?_⟩
        · unfold surfaceSeeds; rw [e]; simp only; rw [if_neg (not_not.2 hs), e1]; simp only; rw [e2]; simp only; rw [if_pos hb]
        · have crowdU : ∀ i, HasClose Z.S s.up i → i < s.up.tree.num → CrowdedPairs Z env.face := by
            rintro i ⟨a, q, ha, hq, hqi, hd⟩ hi
            obtain ⟨u, l, y, k1, hg, -⟩ := hp.stored.pairU i a ha
            obtain ⟨u', l', y', k1', hg', -⟩ := hp.stored.pairU q _ (List.getElem?_eq_getElem (by rw [hp.stored.upper.attr, ← hp.stored.upper.num]; exact hq))
            obtain ⟨b1, b2⟩ := List.getElem?_eq_some_iff.1 k1
            obtain ⟨c1, c2⟩ := List.getElem?_eq_some_iff.1 k1'
            have hf := hp.stored.upper.far hi hq (Ne.symm hqi)
            rw [hp.stored.upper.pts b1, hp.stored.upper.pts c1, b2, c2] at hf hd
            exact ⟨u, l, u', l', _, _, _, _, _, _, hg, hg', Or.inl ⟨hf, by rw [hat _ hg.surf]; exact hd⟩⟩
          have crowdL : ∀ i, HasClose Z.S s.lo i → i < s.lo.tree.num → CrowdedPairs Z env.face := by
            rintro i ⟨a, q, ha, hq, hqi, hd⟩ hi
            obtain ⟨u, l, y, k1, hg, -⟩ := hp.stored.pairL i a ha
            obtain ⟨u', l', y', k1', hg', -⟩ := hp.stored.pairL q _ (List.getElem?_eq_getElem (by rw [hp.stored.lower.attr, ← hp.stored.lower.num]; exact hq))
            obtain ⟨b1, b2⟩ := List.getElem?_eq_some_iff.1 k1
            obtain ⟨c1, c2⟩ := List.getElem?_eq_some_iff.1 k1'
            have hf := hp.stored.lower.far hi hq (Ne.symm hqi)
            rw [hp.stored.lower.pts b1, hp.stored.lower.pts c1, b2, c2] at hf hd
            exact ⟨u, l, u', l', _, _, _, _, _, _, hg, hg', Or.inr ⟨hf, by rw [hat _ hg.surf]; exact hd⟩⟩
          rcases t2 hb with h1 | ⟨i, hi, hcl⟩
          · rcases t1 h1 with h1 | ⟨i, hi, hcl⟩
            · simp at h1
            · exact crowdU i hcl (List.mem_range.1 hi)
          · exact crowdL i hcl (List.mem_range.1 hi)
        · rw [q2 i]
          split
          · right; left; rfl
          · left; rfl
    · have hb' : m2.2 = false := by simpa using hb
      obtain ⟨r1, r2, r3⟩ := merged_ok hp.stored
      obtain ⟨g1, g2⟩ := f2 hb'
      obtain ⟨-, g3⟩ := f1 g1
      refine ⟨Z.S, false, s.up, s.lo, ?_, SameBut.refl _, r1, r2, r3, fun _ => ⟨rfl, fun i j k ht => ?_, fun i hi => g3 i (List.mem_range.2 hi), fun i hi => g2 i (List.mem_range.2 hi)⟩,
        by simp, fun i _ => Or.inl rfl⟩
      · unfold surfaceSeeds; rw [e]; simp only; rw [if_neg (not_not.2 hs), e1]; simp only; rw [e2]; simp only; rw [if_neg hb]
      · rw [hp.stored.upper.points, hp.stored.lower.points]
        exact hp.complete hs _ (hc i j k (List.mem_range.2 ht.surf) ht)
  · obtain ⟨q1, q2, q3⟩ := shrinkSlivers_spec Z.S.num s.slivers (Z.S, false)
    have hb : (shrinkSlivers Z.S.num s.slivers (Z.S, false)).2 = true := by
      rw [q2]; right
      obtain ⟨p, hp'⟩ := List.exists_mem_of_ne_nil _ hs
      obtain ⟨cs, k1, -⟩ := hp.resolved p hp'
      exact ⟨p, hp', hres cs _ k1⟩
    refine ⟨_, true, SeedTree.empty, SeedTree.empty, ?_, q1, hstart.1, hstart.2.1, hstart.2.2, by simp, fun _ => ⟨rfl, rfl, Or.inl ?_⟩, fun i hi => ?_⟩
    · unfold surfaceSeeds; rw [e]; simp only; rw [if_pos hs, hb]
    · obtain ⟨t, ht, hn⟩ := hp.reason hs
      exact ⟨_, _, _, hm t ht, hn⟩
    · rcases q3 i with h1 | ⟨p, hp', h1, h2⟩
      · left; exact h1
      · right; right
        obtain ⟨cs, k1, k2⟩ := hp.resolved p hp'
        exact ⟨cs, by rw [← h1]; exact k1, by rw [h2]; exact k2⟩

end VoroCrust
