import Verif.Props.Activation

/-!
# C50, C75: the advancing front
-/

namespace VoroCrust

theorem frontSphere_eq (seeds interior : List SeedRec) (i : Nat) : frontSphere seeds interior i = (seeds ++ interior)[i]? := by
  unfold frontSphere
  split_ifs with h
  · rw [List.getElem?_append_left h]
  · rw [List.getElem?_append_right (by omega)]

/-! ## One dart -/

/-- The indices of the neighbour list are right. -/
def TagsOK (all : List SeedRec) (nb : List (Option Nat × SeedRec)) : Prop := ∀ k q, (some k, q) ∈ nb → all[k]? = some q

theorem scanSpheres_spec {all : List SeedRec} (dart : Nat → ℝ) (nb : List (Option Nat × SeedRec)) (hnb : TagsOK all nb) {c : Nat} {q0 : SeedRec} (hc : all[c]? = some q0) :
    ∃ g c' q, scanSpheres dart nb c (distSq3 dart q0.x) = (g, c', distSq3 dart q.x) ∧ all[c']? = some q ∧ distSq3 dart q.x ≤ distSq3 dart q0.x ∧
      (g = true ↔ ∀ p ∈ nb, p.2.size * p.2.size ≤ distSq3 dart p.2.x) ∧ (g = true → ∀ k p, (some k, p) ∈ nb → distSq3 dart q.x ≤ distSq3 dart p.x) := by
  induction nb generalizing c q0 with
  | nil => exact ⟨true, c, q0, rfl, hc, le_refl _, by simp, by simp⟩
  | cons p nb ih =>
    obtain ⟨tag, p⟩ := p
    have hnb' : TagsOK all nb := fun k q hq => hnb k q (by simp [hq])
    -- the new closest sphere
    obtain ⟨c1, q1, e1, h1, h2, h3⟩ : ∃ c1 q1, scanClosest tag (distSq3 dart p.x) c (distSq3 dart q0.x) = (c1, distSq3 dart q1.x) ∧ all[c1]? = some q1 ∧ distSq3 dart q1.x ≤ distSq3 dart q0.x ∧
        (∀ k, tag = some k → distSq3 dart q1.x ≤ distSq3 dart p.x) := by
      unfold scanClosest
      cases tag with
      | none => exact ⟨c, q0, rfl, hc, le_refl _, by simp⟩
      | some k =>
        simp only
        split_ifs with h
        · exact ⟨k, p, rfl, hnb k p (by simp), h.le, fun _ _ => le_refl _⟩
        · exact ⟨c, q0, rfl, hc, le_refl _, fun _ _ => not_lt.1 h⟩
    unfold scanSpheres
    simp only [e1]
    by_cases hin : distSq3 dart p.x < p.size * p.size
    · rw [if_pos hin]
      refine ⟨false, c1, q1, rfl, h1, h2, ?_, by simp⟩
      simp only [Bool.false_eq_true, false_iff, not_forall]
      exact ⟨(tag, p), by simp, not_le.2 hin⟩
    · rw [if_neg hin]
      obtain ⟨g, c', q, e, h4, h5, h6, h7⟩ := ih hnb' h1
      refine ⟨g, c', q, e, h4, h5.trans h2, ?_, fun hg k r hr => ?_⟩
      · rw [h6]
        simp only [List.mem_cons, forall_eq_or_imp]
        exact ⟨fun h => ⟨not_lt.1 hin, h⟩, fun h => h.2⟩
      · rcases List.mem_cons.1 hr with hr | hr
        · obtain ⟨rfl, rfl⟩ := Prod.mk.inj hr
          exact h5.trans (h3 k rfl)
        · exact h7 hg k r hr

/-- The sizing function has no negative values. -/
def SizingOK (F : Features) : Prop := ∀ q ∈ F.sizing, 0 ≤ q.size

theorem sizingBound_spec {T : Option MTree} {sizing : List SeedRec} (h : TreeFor T sizing) (h0 : ∀ q ∈ sizing, 0 ≤ q.size) (dart : Nat → ℝ) {sz : ℝ} (hsz : 0 ≤ sz) :
    ∃ s, sizingBound T sizing dart sz = some s ∧ 0 ≤ s ∧ s ≤ sz ∧ (sizing ≠ [] → ∃ q ∈ sizing, (∀ p ∈ sizing, euclid 3 dart q.x ≤ euclid 3 dart p.x) ∧ s ≤ q.size) ∧
      (s = sz ∨ ∃ q ∈ sizing, q.size ≤ s) := by
  rcases h with ⟨rfl, rfl⟩ | ⟨t, rfl, ht⟩
  · exact ⟨sz, rfl, hsz, le_refl _, by simp, .inl rfl⟩
  · obtain ⟨q, o, e, hq, hmin⟩ := closestRec_spec ht dart
    have hm := List.mem_of_getElem? hq
    refine ⟨min sz q.size, by unfold sizingBound; simp only [e], le_min hsz (h0 q hm), min_le_left _ _, fun _ => ⟨q, hm, hmin, min_le_right _ _⟩, ?_⟩
    rcases min_choice sz q.size with h | h
    · exact .inl h
    · exact .inr ⟨q, hm, h.ge⟩

/-- The size of `b` is not smaller than necessary: it is at least what the Lipschitz condition gives at one of the spheres `all`, or the maximum, or the value of a sizing sample. -/
def BigEnough (F : Features) (L rmax : ℝ) (all : List SeedRec) (b : SeedRec) : Prop :=
  (∃ a ∈ all, a.size + L * euclid 3 b.x a.x ≤ b.size) ∨ rmax ≤ b.size ∨ ∃ q ∈ F.sizing, q.size ≤ b.size

/-- A new sphere `p` of the active seed `s`, among the spheres `all` and the spheres `nb` that were looked at. -/
structure DartOK (F : Features) (L rmax : ℝ) (all : List SeedRec) (s : SeedRec) (nb : List (Option Nat × SeedRec)) (p : SeedRec) : Prop where
  region : p.region = s.region
  nonneg : 0 ≤ p.size
  max : p.size ≤ rmax
  free : ∀ q ∈ nb, q.2.size * q.2.size ≤ distSq3 p.x q.2.x
  closest : ∃ c ∈ all, c.region = s.region ∧ p.size ≤ c.size + L * euclid 3 p.x c.x ∧ euclid 3 p.x c.x ≤ euclid 3 p.x s.x ∧ ∀ k q, (some k, q) ∈ nb → euclid 3 p.x c.x ≤ euclid 3 p.x q.x
  sizing : F.sizing ≠ [] → ∃ q ∈ F.sizing, (∀ r ∈ F.sizing, euclid 3 p.x q.x ≤ euclid 3 p.x r.x) ∧ p.size ≤ q.size
  least : BigEnough F L rmax all p

theorem throwDart_spec {F : Features} {FT : FeatureTrees} {L rmax : ℝ} (hL : 0 ≤ L) (hr : 0 ≤ rmax) (hFT : FT.Hold F) (hS : SizingOK F) {seeds interior : List SeedRec} {idx : Nat} {s : SeedRec}
    (hs : (seeds ++ interior)[idx]? = some s) (h0 : ∀ a ∈ seeds ++ interior, 0 ≤ a.size) {nb : List (Option Nat × SeedRec)} (hnb : TagsOK (seeds ++ interior) nb) (new : List SeedRec)
    (dir : Nat → ℝ) (u : ℝ) :
    ∃ v, throwDart F FT L rmax seeds interior idx s nb new dir u = some v ∧ (∀ p, v = some p → (p.x = fun d => s.x d + u * s.size * dir d) ∧ DartOK F L rmax (seeds ++ interior) s nb p ∧
        ∀ q ∈ new, q.size * q.size ≤ distSq3 p.x q.x) ∧
      ((∀ q ∈ nb, q.2.size * q.2.size ≤ distSq3 (fun d => s.x d + u * s.size * dir d) q.2.x) → (∀ q ∈ new, q.size * q.size ≤ distSq3 (fun d => s.x d + u * s.size * dir d) q.x) →
        (∀ a ∈ seeds ++ interior, a.region = s.region) → v ≠ none) := by
  obtain ⟨g, c', q, e, hq, hle, hg, hmin⟩ := scanSpheres_spec (fun d => s.x d + u * s.size * dir d) nb hnb hs
  have hqm := List.mem_of_getElem? hq
  unfold throwDart
  simp only [e, frontSphere_eq, hq]
  have hall : (new.all fun r => !decide (distSq3 (fun d => s.x d + u * s.size * dir d) r.x < r.size * r.size)) = true ↔
      ∀ r ∈ new, r.size * r.size ≤ distSq3 (fun d => s.x d + u * s.size * dir d) r.x := by
    rw [List.all_eq_true]
    simp
  split_ifs with h
  · obtain ⟨h1, h2, h3⟩ := h
    rw [hall] at h2
    obtain ⟨z, ez, hz1, hz2, hz3, hz4⟩ := sizingBound_spec hFT.sizing hS (fun d => s.x d + u * s.size * dir d)
      (sz := min (q.size + L * Real.sqrt (distSq3 (fun d => s.x d + u * s.size * dir d) q.x)) rmax) (le_min (add_nonneg (h0 q hqm) (mul_nonneg hL (Real.sqrt_nonneg _))) hr)
    rw [ez]
    refine ⟨_, rfl, fun p hp => ?_, by simp⟩
    obtain rfl := Option.some.inj hp
    refine ⟨rfl, ⟨rfl, hz1, hz2.trans (min_le_right _ _), hg.1 h1, ⟨q, hqm, h3.symm, ?_, ?_, ?_⟩, hz3, ?_⟩, h2⟩
    · have := hz2.trans (min_le_left _ _)
      rwa [sqrt_distSq3] at this
    · rw [← sqrt_distSq3, ← sqrt_distSq3]; exact Real.sqrt_le_sqrt hle
    · intro k r hr
      rw [← sqrt_distSq3, ← sqrt_distSq3]; exact Real.sqrt_le_sqrt (hmin h1 k r hr)
    · rcases hz4 with hz4 | hz4
      · rw [sqrt_distSq3] at hz4
        rcases min_choice (q.size + L * euclid 3 (fun d => s.x d + u * s.size * dir d) q.x) rmax with hm | hm
        · exact .inl ⟨q, hqm, by simp only; rw [hz4, hm]⟩
        · exact .inr (.inl (by simp only; rw [hz4, hm]))
      · exact .inr (.inr hz4)
  · refine ⟨none, rfl, by simp, fun h1 h2 h3 => absurd ⟨hg.2 h1, hall.2 h2, (h3 q hqm).symm⟩ h⟩

theorem throwDarts_spec {F : Features} {FT : FeatureTrees} {L rmax : ℝ} (hL : 0 ≤ L) (hr : 0 ≤ rmax) (hFT : FT.Hold F) (hS : SizingOK F) {seeds interior : List SeedRec} {idx : Nat} {s : SeedRec}
    (hs : (seeds ++ interior)[idx]? = some s) (h0 : ∀ a ∈ seeds ++ interior, 0 ≤ a.size) {nb : List (Option Nat × SeedRec)} (hnb : TagsOK (seeds ++ interior) nb) (ds : List ((Nat → ℝ) × ℝ))
    (new : List SeedRec) :
    ∃ ps, throwDarts F FT L rmax seeds interior idx s nb ds new = some (new ++ ps) ∧
      (∀ p ∈ ps, DartOK F L rmax (seeds ++ interior) s nb p ∧ (∀ q ∈ new, q.size * q.size ≤ distSq3 p.x q.x) ∧ ∃ d ∈ ds, p.x = fun k => s.x k + d.2 * s.size * d.1 k) ∧
      ps.Pairwise (fun a b => a.size * a.size ≤ distSq3 b.x a.x) ∧ ps.length ≤ ds.length := by
  induction ds generalizing new with
  | nil => exact ⟨[], by simp [throwDarts], by simp, .nil, le_refl _⟩
  | cons d ds ih =>
    obtain ⟨dir, u⟩ := d
    obtain ⟨v, ev, hv, -⟩ := throwDart_spec hL hr hFT hS hs h0 hnb new dir u
    cases v with
    | none =>
      obtain ⟨ps, e, h1, h2, h3⟩ := ih new
      refine ⟨ps, by unfold throwDarts; simp only [ev, e], fun p hp => ?_, h2, by simp; omega⟩
      obtain ⟨g1, g2, d, hd, g3⟩ := h1 p hp
      exact ⟨g1, g2, d, by simp [hd], g3⟩
    | some p =>
      obtain ⟨hpx, hp1, hp2⟩ := hv p rfl
      obtain ⟨ps, e, h1, h2, h3⟩ := ih (new ++ [p])
      refine ⟨p :: ps, ?_, ?_, ?_, by simp; omega⟩
      · unfold throwDarts; simp only [ev, e]; simp
      · intro q hq
        rcases List.mem_cons.1 hq with rfl | hq
        · exact ⟨hp1, hp2, (dir, u), by simp, hpx⟩
        · obtain ⟨g1, g2, d, hd, g3⟩ := h1 q hq
          exact ⟨g1, fun r hr' => g2 r (by simp [hr']), d, by simp [hd], g3⟩
      · exact List.pairwise_cons.2 ⟨fun q hq => (h1 q hq).2.1 p (by simp), h2⟩

/-! ## The neighbours are enough -/

theorem recsAt_spec {xs : List SeedRec} (l : List Nat) (hl : ∀ i ∈ l, ∃ s, xs[i]? = some s) : ∃ r, recsAt xs l = some r ∧ ∀ i s, (i, s) ∈ r ↔ i ∈ l ∧ xs[i]? = some s := by
  induction l with
  | nil => exact ⟨[], rfl, by simp⟩
  | cons i l ih =>
    obtain ⟨r, e, h⟩ := ih fun j hj => hl j (by simp [hj])
    obtain ⟨s, hs⟩ := hl i (by simp)
    refine ⟨(i, s) :: r, by unfold recsAt; rw [hs, e], fun j q => ?_⟩
    simp only [List.mem_cons, Prod.mk.injEq, h]
    constructor
    · rintro (⟨rfl, rfl⟩ | ⟨h1, h2⟩)
      · exact ⟨Or.inl rfl, hs⟩
      · exact ⟨Or.inr h1, h2⟩
    · rintro ⟨rfl | h1, h2⟩
      · exact Or.inl ⟨rfl, Option.some.inj (h2.symm.trans hs)⟩
      · exact Or.inr ⟨h1, h2⟩

theorem featureNear_spec {T : Option MTree} {xs : List SeedRec} {L r : ℝ} (hL0 : 0 ≤ L) (hL1 : L < 1) (hr : 0 ≤ r) (h : TreeFor T xs) (hx : GoodSpheres L xs) (x : Nat → ℝ) :
    ∃ l, featureNear T xs L r x = some l ∧ ∀ q ∈ xs, ∀ p, euclid 3 x p ≤ 2 * r → euclid 3 p q.x < q.size → ∃ k, (k, q) ∈ l := by
  rcases h with ⟨rfl, rfl⟩ | ⟨t, rfl, ht⟩
  · exact ⟨[], rfl, by simp⟩
  · obtain ⟨c, o, e, hc, -⟩ := closestRec_spec ht x
    have hcm := List.mem_of_getElem? hc
    have h1L : 0 < 1 - L := by linarith
    have hd := euclid_nonneg 3 x c.x
    have hR : 0 ≤ 2 * r + (c.size + L * euclid 3 x c.x + 2 * r * L) / (1 - L) := by
      have := hx.nonneg c hcm
      have := mul_nonneg hL0 hd
      have := mul_nonneg hr hL0
      exact add_nonneg (by linarith) (div_nonneg (by linarith) h1L.le)
    obtain ⟨l, el, -, hl1, hl2⟩ := nearRecs_spec ht x hR
    obtain ⟨rl, er, hrl⟩ := recsAt_spec (xs := xs) l fun i hi => by obtain ⟨s, hs, -⟩ := hl1 i hi; exact ⟨s, hs⟩
    refine ⟨rl, by unfold featureNear; simp only [e, el, er], fun q hq p hp hin => ?_⟩
    obtain ⟨k, hk⟩ := List.getElem?_of_mem hq
    refine ⟨k, (hrl k q).2 ⟨hl2 k q hk ?_, hk⟩⟩
    have h1 := hx.lip q hq c hcm
    have h2 := euclid_triangle 3 q.x x c.x
    rw [euclid_comm 3 q.x x] at h2
    have h3 := mul_le_mul_of_nonneg_left h2 hL0
    have h4 := euclid_triangle 3 x p q.x
    have h5 : (1 - L) * euclid 3 x q.x < 2 * r + c.size + L * euclid 3 x c.x := by nlinarith
    have h6 : 2 * r + (c.size + L * euclid 3 x c.x + 2 * r * L) / (1 - L) = (2 * r + c.size + L * euclid 3 x c.x) / (1 - L) := by
      field_simp; ring
    rw [h6, lt_div_iff₀ h1L]
    linarith

theorem interiorNear_spec (n : Nat) (R : ℝ) (x : Nat → ℝ) (qs : List SeedRec) (i : Nat) (k : Nat) (q : SeedRec) :
    (k, q) ∈ interiorNear n R x qs i ↔ ∃ j, k = n + i + j ∧ qs[j]? = some q ∧ euclid 3 q.x x ≤ R := by
  induction qs generalizing i with
  | nil => simp [interiorNear]
  | cons a qs ih =>
    unfold interiorNear
    rw [sqrt_distSq3]
    constructor
    · intro h
      split_ifs at h with hc
      · obtain ⟨j, h1, h2⟩ := (ih (i + 1)).1 h
        exact ⟨j + 1, by omega, by simpa using h2⟩
      · rcases List.mem_cons.1 h with h | h
        · obtain ⟨rfl, rfl⟩ := Prod.mk.inj h
          exact ⟨0, by omega, rfl, not_lt.1 hc⟩
        · obtain ⟨j, h1, h2⟩ := (ih (i + 1)).1 h
          exact ⟨j + 1, by omega, by simpa using h2⟩
    · rintro ⟨j, rfl, h2, h3⟩
      cases j with
      | zero =>
        simp only [List.getElem?_cons_zero, Option.some.injEq] at h2
        subst h2
        rw [if_neg (not_lt.2 h3)]
        simp
      | succ j =>
        have := (ih (i + 1)).2 ⟨j, by omega, by simpa using h2, h3⟩
        split_ifs
        · exact this
        · exact List.mem_cons_of_mem _ this

/-- The spheres looked at for the active seed `s` contain every feature sphere, and every other sphere with a size that fits that of `s`, that reaches a dart. -/
theorem dartSpheres_spec {F : Features} {FT : FeatureTrees} {L : ℝ} (hF : F.OK L) (hFT : FT.Hold F) {T : MTree} {seeds interior : List SeedRec} (hT : T.Holds seeds) {s : SeedRec} (hs0 : 0 ≤ s.size) :
    ∃ nb, dartSpheres F FT L T seeds interior s = some nb ∧ TagsOK (seeds ++ interior) nb ∧
      (∀ q ∈ seeds ++ interior, euclid 3 s.x q.x < 3 / (1 - L) * s.size → ∃ k, (some k, q) ∈ nb) ∧
      ∀ p, euclid 3 s.x p ≤ 2 * s.size →
        (∀ q, q ∈ F.surface ∨ q ∈ F.edges ∨ q ∈ F.corners → euclid 3 p q.x < q.size → (none, q) ∈ nb) ∧
        (∀ q ∈ seeds ++ interior, q.size ≤ s.size + L * euclid 3 s.x q.x → euclid 3 p q.x < q.size → ∃ k, (some k, q) ∈ nb) := by
  have hL0 := hF.L0
  have hL1 := hF.L1
  have h1L : 0 < 1 - L := by linarith
  have hR : 0 ≤ 3 / (1 - L) * s.size := mul_nonneg (div_nonneg (by norm_num) h1L.le) hs0
  obtain ⟨l, el, -, hl1, hl2⟩ := nearRecs_spec hT s.x hR
  obtain ⟨a, ea, ha⟩ := featureNear_spec hL0 hL1 hs0 hFT.surface hF.surface s.x
  obtain ⟨b, eb, hb⟩ := featureNear_spec hL0 hL1 hs0 hFT.edges hF.edges s.x
  obtain ⟨c, ec, hc⟩ := featureNear_spec hL0 hL1 hs0 hFT.corners hF.corners s.x
  obtain ⟨r, er, hr⟩ := recsAt_spec (xs := seeds) l fun i hi => by obtain ⟨q, hq, -⟩ := hl1 i hi; exact ⟨q, hq⟩
  unfold dartSpheres
  simp only [el, ea, eb, ec, er]
  have hall : ∀ q ∈ seeds ++ interior, euclid 3 s.x q.x < 3 / (1 - L) * s.size →
      ∃ k, (some k, q) ∈ (r ++ interiorNear seeds.length (3 / (1 - L) * s.size) s.x interior 0).map (fun p => (some p.1, p.2)) ++ (a ++ b ++ c).map fun p => ((none : Option Nat), p.2) := by
    intro q hq hd
    rcases List.mem_append.1 hq with hq | hq
    · obtain ⟨k, hk⟩ := List.getElem?_of_mem hq
      exact ⟨k, List.mem_append_left _ (List.mem_map.2 ⟨(k, q), by simp [(hr k q).2 ⟨hl2 k q hk hd, hk⟩], rfl⟩)⟩
    · obtain ⟨j, hj⟩ := List.getElem?_of_mem hq
      refine ⟨seeds.length + 0 + j, List.mem_append_left _ (List.mem_map.2 ⟨(seeds.length + 0 + j, q), ?_, rfl⟩)⟩
      refine List.mem_append_right _ ((interiorNear_spec _ _ _ _ _ _ _).2 ⟨j, rfl, hj, ?_⟩)
      rw [euclid_comm]; exact hd.le
  refine ⟨_, rfl, ?_, hall, fun p hp => ⟨fun q hq hin => ?_, fun q hq hqs hin => ?_⟩⟩
  · intro k q hk
    rw [List.mem_append] at hk
    rcases hk with hk | hk
    · obtain ⟨⟨k', q'⟩, hk', he⟩ := List.mem_map.1 hk
      simp only [Prod.mk.injEq, Option.some.injEq] at he
      obtain ⟨rfl, rfl⟩ := he
      rcases List.mem_append.1 hk' with hk' | hk'
      · have := ((hr k' q').1 hk').2
        rw [List.getElem?_append_left (List.getElem?_eq_some_iff.1 this).1]
        exact this
      · obtain ⟨j, rfl, hj, -⟩ := (interiorNear_spec _ _ _ _ _ _ _).1 hk'
        rw [List.getElem?_append_right (by omega)]
        rw [show seeds.length + 0 + j - seeds.length = j by omega]
        exact hj
    · obtain ⟨p, -, he⟩ := List.mem_map.1 hk
      simp at he
  · refine List.mem_append_right _ ?_
    have : ∃ k, (k, q) ∈ a ++ b ++ c := by
      rcases hq with hq | hq | hq
      · obtain ⟨k, hk⟩ := ha q hq p hp hin; exact ⟨k, by simp [hk]⟩
      · obtain ⟨k, hk⟩ := hb q hq p hp hin; exact ⟨k, by simp [hk]⟩
      · obtain ⟨k, hk⟩ := hc q hq p hp hin; exact ⟨k, by simp [hk]⟩
    obtain ⟨k, hk⟩ := this
    exact List.mem_map.2 ⟨(k, q), hk, rfl⟩
  · have hd : euclid 3 s.x q.x < 3 / (1 - L) * s.size := by
      have h4 := euclid_triangle 3 s.x p q.x
      rw [div_mul_eq_mul_div, lt_div_iff₀ h1L]
      nlinarith
    exact hall q hq hd

/-! ## The new spheres of a round -/

/-- The random numbers: draws in `[0, 1]`, unit directions, factors in `[1, 2]`. -/
structure RoundInput.OK (inp : RoundInput) : Prop where
  draw : ∀ i, 0 ≤ inp.draw i ∧ inp.draw i ≤ 1
  dir : ∀ k d, inp.dir k d 0 ^ 2 + inp.dir k d 1 ^ 2 + inp.dir k d 2 ^ 2 = 1
  fac : ∀ k d, 1 ≤ inp.fac k d ∧ inp.fac k d ≤ 2

theorem dart_dist (x dir : Nat → ℝ) (h : dir 0 ^ 2 + dir 1 ^ 2 + dir 2 ^ 2 = 1) {r : ℝ} (hr : 0 ≤ r) : euclid 3 (fun d => x d + r * dir d) x = r := by
  rw [← sqrt_distSq3]
  have : distSq3 (fun d => x d + r * dir d) x = r ^ 2 := by
    unfold distSq3
    have : (x 0 + r * dir 0 - x 0) * (x 0 + r * dir 0 - x 0) + (x 1 + r * dir 1 - x 1) * (x 1 + r * dir 1 - x 1) + (x 2 + r * dir 2 - x 2) * (x 2 + r * dir 2 - x 2) =
        r ^ 2 * (dir 0 ^ 2 + dir 1 ^ 2 + dir 2 ^ 2) := by ring
    rw [this, h, mul_one]
  rw [this, Real.sqrt_sq hr]

/-- A new sphere `p` of the active seed `s`, when the spheres are `all`. -/
structure NewSeed (F : Features) (L rmax : ℝ) (all : List SeedRec) (s p : SeedRec) : Prop where
  region : p.region = s.region
  nonneg : 0 ≤ p.size
  max : p.size ≤ rmax
  away : s.size ≤ euclid 3 p.x s.x
  near : euclid 3 p.x s.x ≤ 2 * s.size
  features : ∀ q, q ∈ F.surface ∨ q ∈ F.edges ∨ q ∈ F.corners → q.size ≤ euclid 3 p.x q.x
  free : ∀ q ∈ all, q.size ≤ s.size + L * euclid 3 s.x q.x → q.size ≤ euclid 3 p.x q.x
  looked : ∀ q ∈ all, euclid 3 s.x q.x < 3 / (1 - L) * s.size → q.size ≤ euclid 3 p.x q.x
  closest : ∃ c ∈ all, c.region = s.region ∧ p.size ≤ c.size + L * euclid 3 p.x c.x ∧ euclid 3 p.x c.x ≤ euclid 3 p.x s.x ∧
    ∀ q ∈ all, euclid 3 s.x q.x < 3 / (1 - L) * s.size → euclid 3 p.x c.x ≤ euclid 3 p.x q.x
  sizing : F.sizing ≠ [] → ∃ q ∈ F.sizing, (∀ r ∈ F.sizing, euclid 3 p.x q.x ≤ euclid 3 p.x r.x) ∧ p.size ≤ q.size
  least : BigEnough F L rmax all p

/-- What is assumed of a call. -/
structure FrontParams (F : Features) (FT : FeatureTrees) (L rmax : ℝ) : Prop where
  ok : F.OK L
  hold : FT.Hold F
  sizing : SizingOK F
  rmax : 0 ≤ rmax

theorem sq_le_dist {r : ℝ} {x y : Nat → ℝ} (h0 : 0 ≤ r) (h : r * r ≤ distSq3 x y) : r ≤ euclid 3 x y := by
  rw [distSq3_sq] at h
  exact le_of_sq_le_sq (by rw [sq r]; exact h) (euclid_nonneg _ _ _)

theorem newSpheres_spec {F : Features} {FT : FeatureTrees} {L rmax : ℝ} (hP : FrontParams F FT L rmax) {T : MTree} {seeds interior : List SeedRec} (hT : T.Holds seeds)
    (h0 : ∀ a ∈ seeds ++ interior, 0 ≤ a.size) {inp : RoundInput} (hi : inp.OK) (is : List Nat) (his : ∀ i ∈ is, ∃ s, (seeds ++ interior)[i]? = some s) (k : Nat) :
    ∃ new, newSpheres F FT L rmax T seeds interior inp is k = some new ∧
      List.Forall₂ (fun i ps => ∃ s, (seeds ++ interior)[i]? = some s ∧ (∀ p ∈ ps, NewSeed F L rmax (seeds ++ interior) s p) ∧ ps.length ≤ 20 ∧ ps.Pairwise fun a b => a.size ≤ euclid 3 b.x a.x) is new := by
  induction is generalizing k with
  | nil => exact ⟨[], rfl, .nil⟩
  | cons i is ih =>
    obtain ⟨new, en, hn⟩ := ih (fun j hj => his j (by simp [hj])) (k + 1)
    obtain ⟨s, hs⟩ := his i (by simp)
    have hs0 := h0 s (List.mem_of_getElem? hs)
    obtain ⟨nb, enb, htag, hnear, hcov⟩ := dartSpheres_spec hP.ok hP.hold hT (interior := interior) hs0
    obtain ⟨ps, ep, h1, h2, h3⟩ := throwDarts_spec hP.ok.L0 hP.rmax hP.hold hP.sizing hs h0 htag ((List.range 20).map fun d => (inp.dir k d, inp.fac k d)) []
    refine ⟨ps :: new, ?_, .cons ⟨s, hs, fun p hp => ?_, by simpa using h3, ?_⟩ hn⟩
    · unfold newSpheres
      simp only [frontSphere_eq, hs, enb, ep, en, List.nil_append]
    · obtain ⟨g, -, d, hd, hx⟩ := h1 p hp
      obtain ⟨e, -, rfl⟩ := List.mem_map.1 hd
      simp only at hx
      obtain ⟨f1, f2⟩ := hi.fac k e
      have hr : euclid 3 p.x s.x = inp.fac k e * s.size := by
        rw [hx]
        exact dart_dist _ _ (hi.dir k e) (mul_nonneg (by linarith) hs0)
      have hfar : euclid 3 s.x p.x ≤ 2 * s.size := by rw [euclid_comm, hr]; nlinarith
      obtain ⟨c, hc, c1, c2, c3, c4⟩ := g.closest
      refine ⟨g.region, g.nonneg, g.max, by rw [hr]; nlinarith, by rw [hr]; nlinarith, fun q hq => ?_, fun q hq hqs => ?_, fun q hq hd => ?_, ⟨c, hc, c1, c2, c3, fun q hq hd => ?_⟩, g.sizing, g.least⟩
      · by_contra hlt
        have h3 := (hcov p.x hfar).1 q hq (not_le.1 hlt)
        have hq0 : 0 ≤ q.size := by
          rcases hq with hq | hq | hq
          · exact hP.ok.surface.nonneg q hq
          · exact hP.ok.edges.nonneg q hq
          · exact hP.ok.corners.nonneg q hq
        exact hlt (sq_le_dist hq0 (g.free _ h3))
      · by_contra hlt
        obtain ⟨j, h3⟩ := (hcov p.x hfar).2 q hq hqs (not_le.1 hlt)
        exact hlt (sq_le_dist (h0 q hq) (g.free _ h3))
      · obtain ⟨j, h3⟩ := hnear q hq hd
        exact sq_le_dist (h0 q hq) (g.free _ h3)
      · obtain ⟨j, h3⟩ := hnear q hq hd
        exact c4 j q h3
    · have h2' : ps.Pairwise fun a b => a ∈ ps ∧ a.size * a.size ≤ distSq3 b.x a.x := by
        refine List.Pairwise.imp_of_mem ?_ h2
        intro a b ha _ hab
        exact ⟨ha, hab⟩
      exact h2'.imp fun ⟨ha, hab⟩ => sq_le_dist (h1 _ ha).1.nonneg hab

/-! ## The end of a round -/

theorem mergeSeeds_spec {seeds extra : List SeedRec} (hne : seeds ≠ []) : ∃ T, mergeSeeds seeds extra = some (seeds ++ extra, T) ∧ T.Holds (seeds ++ extra) := by
  obtain ⟨b, eb, b1, -, b3⟩ := copyInto_spec seeds 0 (SeedBuf.new (seeds.length + extra.length)) (by simp [SeedBuf.new])
  obtain ⟨b', eb', b1', b2', b3'⟩ := copyInto_spec extra seeds.length b (by rw [b1]; simp [SeedBuf.new])
  obtain ⟨T, eT, hT⟩ := meshTree_spec (xs := seeds ++ extra) (by simp [hne]) (le_refl _)
  refine ⟨T, ?_, hT⟩
  have ht : b'.take (seeds.length + extra.length) = some (seeds ++ extra) := by
    rw [show seeds.length + extra.length = (seeds ++ extra).length by simp]
    refine take_spec b' _ (by rw [b1', b1]; simp [SeedBuf.new]) fun k r hr => ?_
    by_cases hk : k < seeds.length
    · rw [List.getElem?_append_left hk] at hr
      rw [b2' k hk]
      simpa using b3 k r hr
    · rw [List.getElem?_append_right (by omega)] at hr
      have := b3' _ r hr
      rwa [show seeds.length + (k - seeds.length) = k by omega] at this
  unfold mergeSeeds
  simp only [eb, eb', ht, eT]

theorem Holds.congr {T : MTree} {xs ys : List SeedRec} (h : T.Holds xs) (hl : ys.length = xs.length) (hx : ∀ (i : Nat) (a b : SeedRec), xs[i]? = some a → ys[i]? = some b → b.x = a.x) : T.Holds ys := by
  refine ⟨h.tree, h.dim, by rw [h.num, hl], fun i hi => ?_, fun o ho => ?_, fun i j o hi hj => h.inj i j o (by omega) (by omega)⟩
  · obtain ⟨o, s, h1, h2, h3⟩ := h.old i (by omega)
    have ho : o < ys.length := by rw [hl]; exact (List.getElem?_eq_some_iff.1 h2).1
    exact ⟨o, ys[o], h1, List.getElem?_eq_getElem ho, by rw [h3, hx o s ys[o] h2 (List.getElem?_eq_getElem ho)]⟩
  · obtain ⟨i, hi, h1⟩ := h.onto o (by omega)
    exact ⟨i, by omega, h1⟩

/-- How the list of spheres may change: earlier spheres keep position and region and do not grow; each later one has the region of an earlier one, which is not the outside, size at
most `rmax`, and is outside all feature spheres. -/
structure Grown (F : Features) (L rmax : ℝ) (all all' : List SeedRec) : Prop where
  keep : ∀ (i : Nat) (a : SeedRec), all[i]? = some a → ∃ b, all'[i]? = some b ∧ b.x = a.x ∧ b.region = a.region ∧ b.size ≤ a.size
  new : ∀ (i : Nat) (b : SeedRec), all.length ≤ i → all'[i]? = some b →
    b.region ≠ 0 ∧ b.size ≤ rmax ∧ (∀ q, q ∈ F.surface ∨ q ∈ F.edges ∨ q ∈ F.corners → q.size ≤ euclid 3 b.x q.x) ∧ ∃ j c, j < i ∧ all'[j]? = some c ∧ c.region = b.region
  least : ∀ b ∈ all', BigEnough F L rmax all b

/-- A size that has not been changed is big enough. -/
theorem BigEnough.refl {F : Features} {L rmax : ℝ} {all : List SeedRec} {b : SeedRec} (h : b ∈ all) : BigEnough F L rmax all b := .inl ⟨b, h, by rw [euclid_self]; linarith⟩

theorem BigEnough.trans {F : Features} {L rmax : ℝ} (hL : 0 ≤ L) {xs ys : List SeedRec} {b : SeedRec} (h : ∀ a ∈ ys, BigEnough F L rmax xs a) (hb : BigEnough F L rmax ys b) : BigEnough F L rmax xs b := by
  rcases hb with ⟨a, ha, hab⟩ | hb | hb
  · have hd := mul_nonneg hL (euclid_nonneg 3 b.x a.x)
    rcases h a ha with ⟨c, hc, hca⟩ | hc | ⟨q, hq, hc⟩
    · have := mul_le_mul_of_nonneg_left (euclid_triangle 3 b.x a.x c.x) hL
      exact .inl ⟨c, hc, by linarith⟩
    · exact .inr (.inl (by linarith))
    · exact .inr (.inr ⟨q, hq, by linarith⟩)
  · exact .inr (.inl hb)
  · exact .inr (.inr hb)

theorem Grown.refl (F : Features) (L rmax : ℝ) (all : List SeedRec) : Grown F L rmax all all :=
  ⟨fun i a h => ⟨a, h, rfl, rfl, le_refl _⟩, fun i b h hb => by have := (List.getElem?_eq_some_iff.1 hb).1; omega, fun b hb => .refl hb⟩

theorem Grown.trans {F : Features} {L rmax : ℝ} (hL : 0 ≤ L) {a b c : List SeedRec} (h : Grown F L rmax a b) (k : Grown F L rmax b c) : Grown F L rmax a c := by
  constructor
  · intro i x hx
    obtain ⟨y, hy, y1, y2, y3⟩ := h.keep i x hx
    obtain ⟨z, hz, z1, z2, z3⟩ := k.keep i y hy
    exact ⟨z, hz, z1.trans y1, z2.trans y2, z3.trans y3⟩
  · intro i z hi hz
    by_cases hb : b.length ≤ i
    · exact k.new i z hb hz
    · have hyb := List.getElem?_eq_getElem (show i < b.length by omega)
      obtain ⟨g1, g2, g3, j, c', hj, hc', hc⟩ := h.new i _ hi hyb
      obtain ⟨z', hz', z1, z2, z3⟩ := k.keep i _ hyb
      obtain rfl := Option.some.inj (hz.symm.trans hz')
      obtain ⟨w, hw, -, w2, -⟩ := k.keep j c' hc'
      exact ⟨by rw [z2]; exact g1, z3.trans g2, fun q hq => by rw [z1]; exact g3 q hq, j, w, hj, hw, by rw [w2, z2, hc]⟩
  · exact fun z hz => .trans hL h.least (k.least z hz)

/-- All sizes of a grown list without negative sizes. -/
theorem Grown.region {F : Features} {L rmax : ℝ} {a b : List SeedRec} (h : Grown F L rmax a b) {i : Nat} {x : SeedRec} (hx : a[i]? = some x) (h0 : x.region ≠ 0) : ∃ y, b[i]? = some y ∧ y.region ≠ 0 := by
  obtain ⟨y, hy, -, y2, -⟩ := h.keep i x hx
  exact ⟨y, hy, by rw [y2]; exact h0⟩

/-- Invariant of the rounds. -/
structure FrontInv (s : FrontState) : Prop where
  ne : s.seeds ≠ []
  tree : s.tree.Holds s.seeds
  nonneg : ∀ a ∈ s.seeds ++ s.interior, 0 ≤ a.size
  front : ∀ i ∈ s.front, ∃ a, (s.seeds ++ s.interior)[i]? = some a ∧ a.region ≠ 0

theorem lipGrown {F : Features} {rmax L : ℝ} {T : MTree} {xs : List SeedRec} (hL : 0 ≤ L) (hT : T.Holds xs) (h0 : ∀ a ∈ xs, 0 ≤ a.size) :
    ∃ ys N, (∀ fuel, N ≤ fuel → lipschitzSeeds L fuel T xs = some ys) ∧ ys.length = xs.length ∧ Grown F L rmax xs ys ∧ T.Holds ys ∧ ∀ a ∈ ys, 0 ≤ a.size := by
  obtain ⟨ys, N, h1, h2, h3, -, -⟩ := C74_mesher_lipschitz_partial L hL T xs hT h0
  have hget : ∀ i (a : SeedRec), xs[i]? = some a → ∃ b, ys[i]? = some b := fun i a ha => ⟨_, List.getElem?_eq_getElem (by rw [h2]; exact (List.getElem?_eq_some_iff.1 ha).1)⟩
  refine ⟨ys, N, h1, h2, ⟨fun i a ha => ?_, fun i b hi hb => ?_, fun b hb => ?_⟩, Holds.congr hT h2 fun i a b ha hb => (h3 i a b ha hb).1, fun b hb => ?_⟩
  · obtain ⟨b, hb⟩ := hget i a ha
    obtain ⟨g1, g2, g3, -⟩ := h3 i a b ha hb
    exact ⟨b, hb, g1, g2, g3⟩
  · have := (List.getElem?_eq_some_iff.1 hb).1; omega
  · obtain ⟨i, hi⟩ := List.getElem?_of_mem hb
    obtain ⟨g1, -, -, c, hc, hc2⟩ := h3 i _ b (List.getElem?_eq_getElem (show i < xs.length by rw [← h2]; exact (List.getElem?_eq_some_iff.1 hi).1)) hi
    exact .inl ⟨c, hc, by rw [g1]; exact hc2⟩
  · obtain ⟨i, hi⟩ := List.getElem?_of_mem hb
    have ha := List.getElem?_eq_getElem (show i < xs.length by rw [← h2]; exact (List.getElem?_eq_some_iff.1 hi).1)
    obtain ⟨-, -, -, c, hc, hc2⟩ := h3 i _ b ha hi
    have := h0 c hc
    have := mul_nonneg hL (euclid_nonneg 3 (xs[i]'(by rw [← h2]; exact (List.getElem?_eq_some_iff.1 hi).1)).x c.x)
    linarith

/-- The new spheres of a round with this front, in order. -/
def NewList (F : Features) (L rmax : ℝ) (front : List Nat) (all : List SeedRec) (new : List SeedRec) : Prop := ∀ p ∈ new, ∃ i ∈ front, ∃ s, all[i]? = some s ∧ s.region ≠ 0 ∧ NewSeed F L rmax all s p

theorem newGrown {F : Features} {L rmax : ℝ} {front : List Nat} {all new : List SeedRec} (h : NewList F L rmax front all new) : Grown F L rmax all (all ++ new) := by
  refine ⟨fun i a ha => ⟨a, by rw [List.getElem?_append_left (List.getElem?_eq_some_iff.1 ha).1]; exact ha, rfl, rfl, le_refl _⟩, fun i b hi hb => ?_, fun b hb => ?_⟩
  swap
  · rcases List.mem_append.1 hb with hb | hb
    · exact .refl hb
    · obtain ⟨-, -, s, -, -, s2⟩ := h b hb
      exact s2.least
  rw [List.getElem?_append_right hi] at hb
  obtain ⟨j, -, s, hs, s1, s2⟩ := h b (List.mem_of_getElem? hb)
  have hj := (List.getElem?_eq_some_iff.1 hs).1
  exact ⟨by rw [s2.region]; exact s1, s2.max, s2.features, j, s, by omega, by rw [List.getElem?_append_left hj]; exact hs, s2.region.symm⟩

theorem endRound_spec {F : Features} {L rmax : ℝ} (hL : 0 ≤ L) (cap : Nat) {s : FrontState} (hs : FrontInv s) {inactive : List Nat} (hin : ∀ i ∈ inactive, i ∈ s.front) {new : List SeedRec}
    (hnew : NewList F L rmax s.front (s.seeds ++ s.interior) new) :
    ∃ s' b N, (∀ lf, N ≤ lf → endRound L lf cap s inactive new = some (s', b)) ∧ FrontInv s' ∧ Grown F L rmax (s.seeds ++ s.interior ++ new) (s'.seeds ++ s'.interior) ∧ (b = true → s'.interior = []) ∧
      (b = true ↔ new = [] ∧ inactive = []) ∧ (b = false → s'.front ≠ []) ∧
      (s'.seeds ++ s'.interior).length = (s.seeds ++ s.interior).length + new.length ∧ (b = false → s'.front.length = inactive.length + new.length) := by
  have hg := newGrown hnew
  -- the new front
  have hfront : ∀ i ∈ inactive ++ (List.range new.length).map (fun i => s.seeds.length + s.interior.length + i), ∃ a, (s.seeds ++ s.interior ++ new)[i]? = some a ∧ a.region ≠ 0 := by
    intro i hi
    rcases List.mem_append.1 hi with hi | hi
    · obtain ⟨a, ha, ha0⟩ := hs.front i (hin i hi)
      exact hg.region ha ha0
    · obtain ⟨k, hk, rfl⟩ := List.mem_map.1 hi
      rw [List.mem_range] at hk
      have he : (s.seeds ++ s.interior ++ new)[s.seeds.length + s.interior.length + k]? = some new[k] := by
        rw [List.getElem?_append_right (by simp), List.length_append, show s.seeds.length + s.interior.length + k - (s.seeds.length + s.interior.length) = k by omega]
        exact List.getElem?_eq_getElem hk
      exact ⟨new[k], he, (hg.new _ _ (by simp) he).1⟩
  have hnn : ∀ a ∈ s.seeds ++ s.interior ++ new, 0 ≤ a.size := by
    intro a ha
    rcases List.mem_append.1 ha with ha | ha
    · exact hs.nonneg a ha
    · obtain ⟨i, -, q, -, -, h2⟩ := hnew a ha
      exact h2.nonneg
  by_cases hn0 : new = []
  · subst hn0
    by_cases hi0 : inactive = []
    · subst hi0
      by_cases hint : 0 < s.interior.length
      · obtain ⟨T, eT, hT⟩ := mergeSeeds_spec (extra := s.interior) hs.ne
        refine ⟨{ s with seeds := s.seeds ++ s.interior, tree := T, interior := [], front := [] }, true, 0, fun lf _ => ?_, ⟨by simp [hs.ne], hT, by simpa using hs.nonneg, by simp⟩, ?_, fun _ => rfl,
          by simp, by simp, by simp, by simp⟩
        · unfold endRound
          rw [if_pos ⟨rfl, rfl⟩, if_pos hint, eT]
        · simpa using Grown.refl F L rmax _
      · have hint0 : s.interior = [] := List.length_eq_zero_iff.1 (by omega)
        refine ⟨{ s with front := [] }, true, 0, fun lf _ => ?_, ⟨hs.ne, hs.tree, hs.nonneg, by simp⟩, by simpa using Grown.refl F L rmax (s.seeds ++ s.interior), fun _ => hint0, by simp, by simp, by simp, by simp⟩
        unfold endRound
        rw [if_pos ⟨rfl, rfl⟩, if_neg hint]
    · refine ⟨{ s with front := inactive }, false, 0, fun lf _ => ?_, ⟨hs.ne, hs.tree, hs.nonneg, fun i hi => hs.front i (hin i hi)⟩, by simpa using Grown.refl F L rmax (s.seeds ++ s.interior), by simp, by simp [hi0], fun _ => hi0, by simp, by simp⟩
      unfold endRound
      rw [if_neg (fun h => hi0 (List.length_eq_zero_iff.1 h.2)), if_pos (List.length_nil)]
  · have hl : ¬ new.length = 0 := fun h => hn0 (List.length_eq_zero_iff.1 h)
    have hfne : inactive ++ (List.range new.length).map (fun i => s.seeds.length + s.interior.length + i) ≠ [] := by
      intro h
      have := congrArg List.length h
      simp at this
      exact hn0 this.2
    by_cases hcap : s.interior.length + new.length < cap
    · refine ⟨{ s with interior := s.interior ++ new, front := _ }, false, 0, fun lf _ => ?_, ⟨hs.ne, hs.tree, ?_, ?_⟩, ?_, by simp, by simp [hn0], fun _ => hfne, by simp; omega, by simp⟩
      · unfold endRound
        rw [if_neg (fun h => hl h.1), if_neg hl]
        simp only
        rw [if_pos hcap]
      · simpa [← List.append_assoc] using hnn
      · simpa [← List.append_assoc] using hfront
      · simp only [← List.append_assoc]; exact Grown.refl _ _ _ _
    · obtain ⟨T, eT, hT⟩ := mergeSeeds_spec (extra := s.interior ++ new) hs.ne
      rw [← List.append_assoc] at eT hT
      by_cases hlip : (s.seeds ++ s.interior ++ new).length > 2 * s.numLip
      · obtain ⟨ys, N, h1, h2, h3, h4, h5⟩ := lipGrown (F := F) (rmax := rmax) hL hT hnn
        refine ⟨⟨ys, T, [], inactive ++ (List.range new.length).map (fun i => s.seeds.length + s.interior.length + i), ys.length⟩, false, N, fun lf hf => ?_, ⟨?_, h4, by simpa using h5, ?_⟩, ?_, by simp, by simp [hn0], fun _ => hfne, ?_, by simp⟩
        · unfold endRound
          rw [if_neg (fun h => hl h.1), if_neg hl]
          simp only
          rw [if_neg hcap, eT]
          simp only
          rw [if_pos hlip, h1 lf hf]
        · intro (h : ys = [])
          rw [h] at h2
          simp at h2
          exact hs.ne (List.length_eq_zero_iff.1 (by omega))
        · intro i hi
          obtain ⟨a, ha, ha0⟩ := hfront i hi
          simpa using h3.region ha ha0
        · simpa using h3
        · simp only [List.append_nil]
          rw [h2]; simp; omega
      · refine ⟨⟨s.seeds ++ s.interior ++ new, T, [], inactive ++ (List.range new.length).map (fun i => s.seeds.length + s.interior.length + i), s.numLip⟩, false, 0, fun lf hf => ?_, ⟨by simp [hs.ne], hT, by simpa using hnn, by simpa using hfront⟩, by simpa using Grown.refl F L rmax (s.seeds ++ s.interior ++ new), by simp, by simp [hn0],
          fun _ => hfne, by simp; omega, by simp⟩
        unfold endRound
        rw [if_neg (fun h => hl h.1), if_neg hl]
        simp only
        rw [if_neg hcap, eT]
        simp only
        rw [if_neg hlip]

/-! ## Rounds -/

theorem frontRecs_spec {seeds interior : List SeedRec} (front : List Nat) (h : ∀ i ∈ front, ∃ a, (seeds ++ interior)[i]? = some a) :
    ∃ fs, frontRecs seeds interior front = some fs ∧ List.Forall₂ (fun i a => (seeds ++ interior)[i]? = some a) front fs := by
  induction front with
  | nil => exact ⟨[], rfl, .nil⟩
  | cons i is ih =>
    obtain ⟨fs, e, hf⟩ := ih fun j hj => h j (by simp [hj])
    obtain ⟨a, ha⟩ := h i (by simp)
    exact ⟨a :: fs, by unfold frontRecs; simp only [frontSphere_eq, ha, e], .cons ha hf⟩

theorem shuffledFront_spec {ρ : ℝ → ℝ} (hmono : Monotone ρ) (hρ : ∀ n : Nat, ρ (n : ℝ) = n) {draw : Nat → ℝ} (hd : ∀ i, draw i ≤ 1) (front : List Nat) :
    ∃ fr, shuffledFront ρ draw front = some fr ∧ fr.Perm front := by
  obtain ⟨b, eb, σ, h1, h2⟩ := shuffleFrom_spec (α := Nat) hmono (s := 0) (n := front.length) (hρ _) ((List.range front.length).map draw)
    (fun u hu => by obtain ⟨i, -, rfl⟩ := List.mem_map.1 hu; exact hd i) (i := 0) (le_refl _) (by simp) (fun i => front.getD i 0)
  have hlt : ∀ k, k < front.length ↔ σ k < front.length := fun k => by
    constructor
    · intro hk
      by_contra hc
      have := h2 (σ k) (Or.inr (by omega))
      rw [σ.injective this] at hc
      omega
    · intro hk
      by_contra hc
      rw [h2 k (Or.inr (by omega))] at hk
      omega
  refine ⟨_, by unfold shuffledFront; simp only [eb]; rfl, ?_⟩
  have hp : ((List.range front.length).map σ).Perm (List.range front.length) := by
    rw [List.perm_ext_iff_of_nodup ((List.nodup_range).map σ.injective) List.nodup_range]
    intro a
    rw [List.mem_map]
    constructor
    · rintro ⟨k, hk, rfl⟩
      rw [List.mem_range] at *
      exact (hlt k).1 hk
    · intro ha
      refine ⟨σ.symm a, ?_, by simp⟩
      rw [List.mem_range] at *
      rw [hlt]
      simpa using ha
  have h3 := hp.map (fun i => front.getD i 0)
  have e1 : (List.range front.length).map b = ((List.range front.length).map σ).map (fun i => front.getD i 0) := by
    rw [List.map_map]
    exact List.map_congr_left fun k _ => h1 k
  have e2 : (List.range front.length).map (fun i => front.getD i 0) = front := by
    apply List.ext_getElem
    · simp
    · intro i h _
      simp at h
      simp [List.getD, List.getElem?_eq_getElem h]
  rw [e1]
  rw [e2] at h3
  exact h3

/-- The two lists are the front. -/
theorem splitFront_perm (act : Nat → Bool) (front : List Nat) (i : Nat) : ((splitFront act front i).1 ++ (splitFront act front i).2).Perm front := by
  induction front generalizing i with
  | nil => exact .refl _
  | cons s ss ih =>
    unfold splitFront
    simp only
    split_ifs
    · exact (ih (i + 1)).cons s
    · exact (List.perm_middle).trans ((ih (i + 1)).cons s)

theorem flatten_new {F : Features} {L rmax : ℝ} {all : List SeedRec} {is : List Nat} {new : List (List SeedRec)} (hr : ∀ i ∈ is, ∃ a, all[i]? = some a ∧ a.region ≠ 0)
    (h : List.Forall₂ (fun i ps => ∃ s, all[i]? = some s ∧ (∀ p ∈ ps, NewSeed F L rmax all s p) ∧ ps.length ≤ 20 ∧ ps.Pairwise fun a b => a.size ≤ euclid 3 b.x a.x) is new) : NewList F L rmax is all new.flatten := by
  induction h with
  | nil => intro p hp; simp at hp
  | cons hd _ ih =>
    intro p hp
    rw [List.flatten_cons, List.mem_append] at hp
    rcases hp with hp | hp
    · obtain ⟨s, h1, h2, -⟩ := hd
      obtain ⟨a, h3, h4⟩ := hr _ List.mem_cons_self
      obtain rfl := Option.some.inj (h1.symm.trans h3)
      exact ⟨_, List.mem_cons_self, s, h1, h4, h2 p hp⟩
    · obtain ⟨i, h1, h2⟩ := ih (fun i hi => hr i (by simp [hi])) p hp
      exact ⟨i, List.mem_cons_of_mem _ h1, h2⟩

theorem flatten_length {α β : Type} {R : α → List β → Prop} {m : Nat} (hR : ∀ i ps, R i ps → ps.length ≤ m) {is : List α} {new : List (List β)} (h : List.Forall₂ R is new) : new.flatten.length ≤ m * is.length := by
  induction h with
  | nil => simp
  | cons hd _ ih =>
    have := hR _ _ hd
    simp only [List.flatten_cons, List.length_append, List.length_cons]
    rw [Nat.mul_succ]
    omega

/-- One round. -/
theorem frontRound_spec {ρ : ℝ → ℝ} (hmono : Monotone ρ) (hρ : ∀ n : Nat, ρ (n : ℝ) = n) {F : Features} {FT : FeatureTrees} {L rmax : ℝ} (hP : FrontParams F FT L rmax) (threads : Nat)
    {inp : RoundInput} (hi : inp.OK) {s : FrontState} (hs : FrontInv s) (hne : s.front ≠ []) :
    ∃ s' b new N, (∀ lf, N ≤ lf → frontRound ρ F FT L rmax lf threads inp s = some (s', b)) ∧ FrontInv s' ∧ Grown F L rmax (s.seeds ++ s.interior) (s'.seeds ++ s'.interior) ∧ (b = true → s'.interior = []) ∧
      (b = false → s'.front ≠ []) ∧ NewList F L rmax s.front (s.seeds ++ s.interior) new ∧ Grown F L rmax (s.seeds ++ s.interior ++ new) (s'.seeds ++ s'.interior) ∧ (s'.seeds ++ s'.interior).length = (s.seeds ++ s.interior).length + new.length ∧ (b = true → new = []) ∧ (s.front.length = 1 → new = [] → b = true) ∧
      new.length ≤ 20 * s.front.length ∧ (b = false → s'.front.length ≤ s.front.length + new.length ∧ (new = [] → s'.front.length < s.front.length)) := by
  obtain ⟨fr, e1, hperm⟩ := shuffledFront_spec hmono hρ (fun i => (hi.draw i).2) s.front
  obtain ⟨fs, e2, h2⟩ := frontRecs_spec (seeds := s.seeds) (interior := s.interior) fr fun i hi' => by
    obtain ⟨a, ha, -⟩ := hs.front i (hperm.mem_iff.1 hi'); exact ⟨a, ha⟩
  have hlen : 0 < fs.length := by
    rw [← h2.length_eq, hperm.length_eq]
    exact List.length_pos_iff.2 hne
  obtain ⟨act, e3, -, hact0⟩ := activate_spec (L := L) (cap := 100 * threads) (fs := fun i => fs.getD i ⟨fun _ => 0, 0, 0⟩) hlen
  have hmem : ∀ i, i ∈ (splitFront act fr 0).1 ∨ i ∈ (splitFront act fr 0).2 → i ∈ s.front := fun i h => by
    rw [← hperm.mem_iff, ← (splitFront_perm act fr 0).mem_iff, List.mem_append]
    exact h
  obtain ⟨new, e4, h4⟩ := newSpheres_spec hP hs.tree hs.nonneg hi (splitFront act fr 0).1 (fun i h => by
    obtain ⟨a, ha, -⟩ := hs.front i (hmem i (Or.inl h)); exact ⟨a, ha⟩) 0
  have hsplit : (splitFront act fr 0).1.length + (splitFront act fr 0).2.length = s.front.length := by
    rw [← List.length_append, (splitFront_perm act fr 0).length_eq, hperm.length_eq]
  have hfirst : 0 < (splitFront act fr 0).1.length := by
    cases fr with
    | nil => exact absurd (hperm.length_eq.symm.trans List.length_nil) (by have := List.length_pos_iff.2 hne; omega)
    | cons x fr => simp [splitFront, hact0]
  have hcount : new.flatten.length ≤ 20 * s.front.length := le_trans (flatten_length (fun i ps ⟨_, _, _, h, _⟩ => h) h4) (by omega)
  have hnl : NewList F L rmax s.front (s.seeds ++ s.interior) new.flatten := fun p hp => by
    obtain ⟨i, h1, h2⟩ := flatten_new (fun i h => hs.front i (hmem i (Or.inl h))) h4 p hp
    exact ⟨i, hmem i (Or.inl h1), h2⟩
  obtain ⟨s', b, N, g1, g2, g3, g4, g5, g6, g7, g8⟩ := endRound_spec (F := F) (rmax := rmax) hP.ok.L0 (1000 * threads) hs (inactive := (splitFront act fr 0).2) (fun i h => hmem i (Or.inr h)) hnl
  refine ⟨s', b, new.flatten, N, fun lf hf => ?_, g2, (newGrown hnl).trans hP.ok.L0 g3, g4, g6, hnl, g3, g7, fun hb => (g5.1 hb).1, fun h1 h2 => g5.2 ⟨h2, ?_⟩, hcount, fun hb => ⟨?_, fun h => ?_⟩⟩
  rotate_left
  · obtain ⟨x, rfl⟩ := List.length_eq_one_iff.1 (hperm.length_eq.trans h1)
    simp [splitFront, hact0]
  · rw [g8 hb]; omega
  · rw [g8 hb, h]; simp only [List.length_nil]; omega
  unfold frontRound
  simp only [e1, e2, e3, e4]
  exact g1 lf hf

theorem frontRounds_spec {ρ : ℝ → ℝ} (hmono : Monotone ρ) (hρ : ∀ n : Nat, ρ (n : ℝ) = n) {F : Features} {FT : FeatureTrees} {L rmax : ℝ} (hP : FrontParams F FT L rmax) (threads : Nat)
    (inputs : List RoundInput) (hi : ∀ inp ∈ inputs, inp.OK) {s : FrontState} (hs : FrontInv s) (hne : s.front ≠ []) :
    ∃ s' b N, (∀ lf, N ≤ lf → frontRounds ρ F FT L rmax lf threads inputs s = some (s', b)) ∧ FrontInv s' ∧ Grown F L rmax (s.seeds ++ s.interior) (s'.seeds ++ s'.interior) ∧
      (b = true → s'.interior = []) := by
  induction inputs generalizing s with
  | nil => exact ⟨s, false, 0, fun lf _ => rfl, hs, Grown.refl _ _ _ _, by simp⟩
  | cons inp is ih =>
    obtain ⟨s1, b, -, N, g1, g2, g3, g4, g5, -⟩ := frontRound_spec hmono hρ hP threads (hi inp (by simp)) hs hne
    cases b with
    | true => exact ⟨s1, true, N, fun lf hf => by unfold frontRounds; rw [g1 lf hf], g2, g3, g4⟩
    | false =>
      obtain ⟨s2, b, M, k1, k2, k3, k4⟩ := ih (fun i hi' => hi i (by simp [hi'])) g2 (g5 rfl)
      refine ⟨s2, b, max N M, fun lf hf => ?_, k2, g3.trans hP.ok.L0 k3, k4⟩
      unfold frontRounds
      rw [g1 lf (by omega)]
      exact k1 lf (by omega)

theorem startFront_mem {seeds : List SeedRec} {n i : Nat} : i ∈ startFront seeds n ↔ n ≤ i ∧ ∃ a, seeds[i - n]? = some a ∧ a.region ≠ 0 := by
  induction seeds generalizing n with
  | nil => simp [startFront]
  | cons s ss ih =>
    have key : (i ∈ startFront ss (n + 1)) ↔ n + 1 ≤ i ∧ ∃ a, (s :: ss)[i - n]? = some a ∧ a.region ≠ 0 := by
      rw [ih]
      constructor
      · rintro ⟨h, a, ha⟩
        exact ⟨h, a, by rw [show i - n = (i - (n + 1)) + 1 by omega, List.getElem?_cons_succ]; exact ha⟩
      · rintro ⟨h, a, ha⟩
        refine ⟨h, a, ?_⟩
        rwa [show i - n = (i - (n + 1)) + 1 by omega, List.getElem?_cons_succ] at ha
    unfold startFront
    split_ifs with h0
    · rw [key]
      constructor
      · rintro ⟨h, a⟩; exact ⟨by omega, a⟩
      · rintro ⟨h, a, ha, ha0⟩
        refine ⟨?_, a, ha, ha0⟩
        by_contra hc
        rw [show i - n = 0 by omega] at ha
        simp at ha
        exact ha0 (ha ▸ h0)
    · rw [List.mem_cons, key]
      constructor
      · rintro (rfl | ⟨h, a⟩)
        · exact ⟨le_refl _, s, by simp, h0⟩
        · exact ⟨by omega, a⟩
      · rintro ⟨h, a, ha⟩
        by_cases hin : i = n
        · exact Or.inl hin
        · exact Or.inr ⟨by omega, a, ha⟩

/-- **C50**: for all features, seeds of which one is not outside, numbers of threads, rounds and random numbers the front has no undefined behaviour.  When it ends, the earlier seeds are first, in the
same order, with the same position and region and no larger; each new one has the region of an earlier seed, which is not the outside, a size between zero and the maximum, and is outside
all surface, edge and corner spheres.  No size is smaller than the maximum, the values of the sizing function and the Lipschitz condition at the given seeds require. -/
theorem C50_interior_seeds {ρ : ℝ → ℝ} (hmono : Monotone ρ) (hρ : ∀ n : Nat, ρ (n : ℝ) = n) (F : Features) {L rmax : ℝ} (hF : F.OK L) (hsz : SizingOK F) (hmax : 0 ≤ rmax)
    (hc : F.corners.length ≤ F.surface.length) (hs : F.sizing.length ≤ F.surface.length) (threads : Nat) (inputs : List RoundInput) (hi : ∀ inp ∈ inputs, inp.OK) (seeds : List SeedRec)
    (h0 : ∀ a ∈ seeds, 0 ≤ a.size) (hin : ∃ a ∈ seeds, a.region ≠ 0) :
    ∃ r N, (∀ lf, N ≤ lf → generateInterior ρ F L rmax lf threads inputs seeds = some r) ∧ ∀ out, r = some out →
      (∀ (i : Nat) (a : SeedRec), seeds[i]? = some a → ∃ b, out[i]? = some b ∧ b.x = a.x ∧ b.region = a.region ∧ b.size ≤ a.size) ∧
      (∀ b ∈ out, 0 ≤ b.size ∧ ((∃ a ∈ seeds, a.size + L * euclid 3 b.x a.x ≤ b.size) ∨ rmax ≤ b.size ∨ ∃ q ∈ F.sizing, q.size ≤ b.size)) ∧
      ∀ (i : Nat) (b : SeedRec), seeds.length ≤ i → out[i]? = some b →
        b.region ≠ 0 ∧ b.size ≤ rmax ∧ (∀ q, q ∈ F.surface ∨ q ∈ F.edges ∨ q ∈ F.corners → q.size ≤ euclid 3 b.x q.x) ∧ ∃ j c, j < i ∧ out[j]? = some c ∧ c.region = b.region := by
  have hne : seeds ≠ [] := by rintro rfl; simp at hin
  obtain ⟨T, eT, hT⟩ := meshTree_spec hne (le_refl seeds.length)
  obtain ⟨FT, eF, hFT⟩ := C62_buffers_partial F hc hs
  obtain ⟨ys, N1, a1, a2, a3, a4, a5⟩ := lipGrown (F := F) (rmax := rmax) hF.L0 hT h0
  have hyne : ys ≠ [] := by rintro rfl; simp at a2; exact hne (List.length_eq_zero_iff.1 a2.symm)
  have hinv : FrontInv ⟨ys, T, [], startFront ys 0, ys.length⟩ := by
    refine ⟨hyne, a4, by simpa using a5, fun i hi' => ?_⟩
    obtain ⟨-, a, ha, ha0⟩ := startFront_mem.1 hi'
    exact ⟨a, by simpa using ha, ha0⟩
  have hfne : startFront ys 0 ≠ [] := by
    obtain ⟨a, ha, ha0⟩ := hin
    obtain ⟨i, hi'⟩ := List.getElem?_of_mem ha
    obtain ⟨b, hb, hb0⟩ := a3.region hi' ha0
    have : i ∈ startFront ys 0 := startFront_mem.2 ⟨Nat.zero_le _, b, by simpa using hb, hb0⟩
    exact List.ne_nil_of_mem this
  obtain ⟨s', b, N2, b1, b2, b3, b4⟩ := frontRounds_spec hmono hρ ⟨hF, hFT, hsz, hmax⟩ threads inputs hi hinv hfne
  cases b with
  | false =>
    refine ⟨none, max N1 N2, fun lf hf => ?_, by simp⟩
    unfold generateInterior
    simp only [eT, eF, a1 lf (by omega), b1 lf (by omega)]
  | true =>
    have hint := b4 rfl
    have h5 : ∀ a ∈ s'.seeds, 0 ≤ a.size := fun a ha => b2.nonneg a (by simp [ha])
    obtain ⟨zs, N3, c1, c2, c3, c4, c5⟩ := lipGrown (F := F) (rmax := rmax) hF.L0 b2.tree h5
    refine ⟨some zs, max N1 (max N2 N3), fun lf hf => ?_, fun out ho => ?_⟩
    · unfold generateInterior
      simp only [eT, eF, a1 lf (by omega), b1 lf (by omega), c1 lf (by omega), Option.map_some]
    · obtain rfl := Option.some.inj ho
      simp only [hint, List.append_nil] at b3
      have := (a3.trans hF.L0 b3).trans hF.L0 c3
      exact ⟨this.keep, fun b hb => ⟨c5 b hb, this.least b hb⟩, this.new⟩

/-- The seed and interior spheres of a state. -/
def FrontState.all (s : FrontState) : List SeedRec := s.seeds ++ s.interior

/-- **C75**: one round.  It has no undefined behaviour; it appends the accepted darts, in order, to the spheres, which keep their positions and regions.  Each accepted dart belongs to a front seed
`a` that is not outside: it is between one and two radii from it, outside every surface, edge and corner sphere, and outside every seed or interior sphere `q` that is Lipschitz with `a`, that is `q.size ≤
a.size + L * |a - q|`.  Its size is at most the maximum, the bound of its closest sizing sample, and what the Lipschitz condition allows at a sphere of its region which is no farther than `a`.
That sphere is the closest of all that are within `3 / (1 - L)` radii of `a`, and the dart is outside all those. -/
theorem C75_round {ρ : ℝ → ℝ} (hmono : Monotone ρ) (hρ : ∀ n : Nat, ρ (n : ℝ) = n) {F : Features} {FT : FeatureTrees} {L rmax : ℝ} (hP : FrontParams F FT L rmax) (threads : Nat)
    {inp : RoundInput} (hi : inp.OK) {s : FrontState} (hs : FrontInv s) (hne : s.front ≠ []) :
    ∃ s' b N, (∀ lf, N ≤ lf → frontRound ρ F FT L rmax lf threads inp s = some (s', b)) ∧ FrontInv s' ∧ s.all.length ≤ s'.all.length ∧
      (∀ (i : Nat) (a : SeedRec), s.all[i]? = some a → ∃ b, s'.all[i]? = some b ∧ b.x = a.x ∧ b.region = a.region ∧ b.size ≤ a.size) ∧
      (b = true → s'.all.length = s.all.length ∧ s'.interior = []) ∧
      ∀ (i : Nat) (p : SeedRec), s.all.length ≤ i → s'.all[i]? = some p → ∃ j ∈ s.front, ∃ a, s.all[j]? = some a ∧ a.region ≠ 0 ∧ p.region = a.region ∧
        a.size ≤ euclid 3 p.x a.x ∧ euclid 3 p.x a.x ≤ 2 * a.size ∧
        (∀ q, q ∈ F.surface ∨ q ∈ F.edges ∨ q ∈ F.corners → q.size ≤ euclid 3 p.x q.x) ∧
        (∀ q ∈ s.all, q.size ≤ a.size + L * euclid 3 a.x q.x → q.size ≤ euclid 3 p.x q.x) ∧
        p.size ≤ rmax ∧ (∃ c ∈ s.all, c.region = a.region ∧ p.size ≤ c.size + L * euclid 3 p.x c.x ∧ euclid 3 p.x c.x ≤ euclid 3 p.x a.x ∧
          ∀ q ∈ s.all, euclid 3 a.x q.x < 3 / (1 - L) * a.size → euclid 3 p.x c.x ≤ euclid 3 p.x q.x ∧ q.size ≤ euclid 3 p.x q.x) ∧
        (F.sizing ≠ [] → ∃ q ∈ F.sizing, (∀ r ∈ F.sizing, euclid 3 p.x q.x ≤ euclid 3 p.x r.x) ∧ p.size ≤ q.size) := by
  obtain ⟨s', b, new, N, g1, g2, g3, g4, g5, g6, g7, g8, g9, -⟩ := frontRound_spec hmono hρ hP threads hi hs hne
  refine ⟨s', b, N, g1, g2, by unfold FrontState.all; omega, g3.keep, fun hb => ⟨by unfold FrontState.all; rw [g8, g9 hb]; simp, g4 hb⟩, fun i p hip hp => ?_⟩
  unfold FrontState.all at *
  have hlt : i - (s.seeds ++ s.interior).length < new.length := by
    have := (List.getElem?_eq_some_iff.1 hp).1
    omega
  have hnew : (s.seeds ++ s.interior ++ new)[i]? = some new[i - (s.seeds ++ s.interior).length] := by
    rw [List.getElem?_append_right hip]
    exact List.getElem?_eq_getElem hlt
  obtain ⟨p', hp', e1, e2, e3⟩ := g7.keep i _ hnew
  obtain rfl := Option.some.inj (hp.symm.trans hp')
  obtain ⟨j, hj, a, ha, ha0, h⟩ := g6 _ (List.getElem_mem hlt)
  obtain ⟨c, c1, c2, c3, c4, c5⟩ := h.closest
  refine ⟨j, hj, a, ha, ha0, by rw [e2, h.region], by rw [e1]; exact h.away, by rw [e1]; exact h.near, by rw [e1]; exact h.features, by rw [e1]; exact h.free, e3.trans h.max,
    ⟨c, c1, c2, by rw [e1]; exact e3.trans c3, by rw [e1]; exact c4, fun q hq hd => by rw [e1]; exact ⟨c5 q hq hd, h.looked q hq hd⟩⟩, fun hsz => ?_⟩
  obtain ⟨q, q1, q2, q3⟩ := h.sizing hsz
  exact ⟨q, q1, by rw [e1]; exact q2, e3.trans q3⟩

/-! ## Coincident seeds -/

namespace TwoDarts

/-- No features. -/
def noFeatures : Features := ⟨[], [], [], []⟩

noncomputable def seedA : SeedRec := ⟨fun _ => 0, 1, 1⟩

noncomputable def seedB : SeedRec := ⟨fun d => if d = 0 then 3 / 2 else 0, 1, 1⟩

/-- From `seedB` to the left and from `seedA` to the right, both to the point (3/4, 1, 0). -/
noncomputable def toC (k d : Nat) : ℝ := if d = 0 then (if k = 0 then -3 / 5 else 3 / 5) else if d = 1 then 4 / 5 else 0

noncomputable def input : RoundInput := ⟨fun _ => 0, fun k _ d => toC k d, fun _ _ => 5 / 4⟩

theorem input_ok : input.OK := by
  refine ⟨fun _ => by norm_num [input], fun k _ => ?_, fun _ _ => by norm_num [input]⟩
  by_cases hk : k = 0 <;> simp [input, toC, hk] <;> norm_num

theorem hold : FeatureTrees.Hold ⟨none, none, none, none⟩ noFeatures := ⟨.inl ⟨rfl, rfl⟩, .inl ⟨rfl, rfl⟩, .inl ⟨rfl, rfl⟩, .inl ⟨rfl, rfl⟩⟩

theorem ok : noFeatures.OK 0 := ⟨le_refl _, by norm_num, ⟨by simp [noFeatures], by simp [noFeatures]⟩, ⟨by simp [noFeatures], by simp [noFeatures]⟩, ⟨by simp [noFeatures], by simp [noFeatures]⟩⟩

theorem params : FrontParams noFeatures ⟨none, none, none, none⟩ 0 1 := ⟨ok, hold, by intro q hq; simp [noFeatures] at hq, by norm_num⟩

theorem sizes : ∀ a ∈ [seedA, seedB] ++ [], 0 ≤ a.size ∧ a.region = 1 := by
  intro a ha
  simp only [List.append_nil, List.mem_cons, List.not_mem_nil, or_false] at ha
  rcases ha with rfl | rfl <;> simp [seedA, seedB]

/-- The common point. -/
noncomputable def point : Nat → ℝ := fun d => if d = 0 then 3 / 4 else if d = 1 then 1 else 0

/-- Each of the two seeds gets a new sphere at the point. -/
theorem accepted {T : MTree} (hT : T.Holds [seedA, seedB]) (k i : Nat) (s : SeedRec) (hs : [seedA, seedB][i]? = some s) (hx : (fun d => s.x d + 5 / 4 * s.size * toC k d) = point) (is : List Nat)
    (rest : List (List SeedRec)) (hr : newSpheres noFeatures ⟨none, none, none, none⟩ 0 1 T [seedA, seedB] [] input is (k + 1) = some rest) :
    ∃ p ps, newSpheres noFeatures ⟨none, none, none, none⟩ 0 1 T [seedA, seedB] [] input (i :: is) k = some ((p :: ps) :: rest) ∧ p.x = point := by
  have hs' : ([seedA, seedB] ++ [])[i]? = some s := by simpa using hs
  have hsm := sizes s (List.mem_of_getElem? hs')
  obtain ⟨nb, enb, htag, -⟩ := dartSpheres_spec ok hold hT (interior := []) hsm.1
  have hnb : ∀ q ∈ nb, q.2 ∈ [seedA, seedB] ++ [] := by
    intro q hq
    obtain ⟨t, q⟩ := q
    cases t with
    | some j => exact List.mem_of_getElem? (htag _ _ hq)
    | none =>
      exfalso
      unfold dartSpheres at enb
      simp only [featureNear] at enb
      split at enb
      · simp only [noFeatures] at *
        rename_i l a b c e1 e2 e3 e4
        obtain rfl := Option.some.inj e2
        obtain rfl := Option.some.inj e3
        obtain rfl := Option.some.inj e4
        split at enb
        · simp at enb
        · obtain rfl := Option.some.inj enb
          simp at hq
      · simp at enb
  have hfree : ∀ q ∈ [seedA, seedB] ++ [], q.size * q.size ≤ distSq3 point q.x := by
    intro q hq
    simp only [List.append_nil, List.mem_cons, List.not_mem_nil, or_false] at hq
    rcases hq with rfl | rfl <;> norm_num [seedA, seedB, distSq3, point]
  have h0 : ∀ a ∈ [seedA, seedB] ++ [], 0 ≤ a.size := fun a ha => (sizes a ha).1
  obtain ⟨v, ev, hv, hv2⟩ := throwDart_spec (F := noFeatures) (FT := ⟨none, none, none, none⟩) (L := 0) (rmax := 1) (le_refl _) (by norm_num) hold params.sizing hs' h0 htag [] (toC k) (5 / 4)
  rw [hx] at hv2
  have hvn := hv2 (fun q hq => hfree _ (hnb q hq)) (by simp) (fun a ha => by rw [(sizes a ha).2, hsm.2])
  obtain ⟨p, rfl⟩ := Option.ne_none_iff_exists'.1 hvn
  obtain ⟨ps, ep, -⟩ := throwDarts_spec (F := noFeatures) (FT := ⟨none, none, none, none⟩) (L := 0) (rmax := 1) (le_refl _) (by norm_num) hold params.sizing hs' h0 htag
    ((List.range 19).map fun d => (input.dir k (d + 1), input.fac k (d + 1))) [p]
  refine ⟨p, ps, ?_, by rw [(hv p rfl).1, hx]⟩
  have hd : (List.range 20).map (fun d => (input.dir k d, input.fac k d)) = (toC k, 5 / 4) :: (List.range 19).map fun d => (input.dir k (d + 1), input.fac k (d + 1)) := by
    rw [List.range_succ_eq_map, List.map_cons, List.map_map]
    rfl
  unfold newSpheres
  simp only [frontSphere_eq, hs', enb, hr, hd]
  unfold throwDarts
  simp only [ev, List.nil_append, ep, List.cons_append]

end TwoDarts

open TwoDarts in
/-- **C49, consequence.** Two seeds that are 1.5 radii apart are both active, and one round puts two new seeds at the same point. -/
theorem C49_coincident_seeds_false : ∃ (s s' : FrontState) (N : Nat), FrontInv s ∧ input.OK ∧ FrontParams noFeatures ⟨none, none, none, none⟩ 0 1 ∧
    (∀ lf, N ≤ lf → frontRound id noFeatures ⟨none, none, none, none⟩ 0 1 lf 1 input s = some (s', false)) ∧
    ∃ (i j : Nat) (p q : SeedRec), s.all.length ≤ i ∧ i < j ∧ s'.all[i]? = some p ∧ s'.all[j]? = some q ∧ p.x = q.x := by
  obtain ⟨T, -, hT⟩ := meshTree_spec (xs := [seedA, seedB]) (by simp) (le_refl _)
  obtain ⟨p2, ps2, e2, h2⟩ := accepted hT 1 0 seedA rfl (by
    funext d; simp only [seedA, toC, point, one_ne_zero, if_false]; split_ifs <;> norm_num) [] [] rfl
  obtain ⟨p1, ps1, e1, h1⟩ := accepted hT 0 1 seedB rfl (by
    funext d; simp only [seedB, toC, point, if_true]; split_ifs <;> norm_num) [0] _ e2
  obtain ⟨act, ea, a0, a1⟩ := C49_neighbours_active_false 0 1 2 (fun i => [seedB, seedA].getD i ⟨fun _ => 0, 0, 0⟩) (le_refl _) (by norm_num)
  have eshuf : shuffledFront id input.draw [0, 1] = some [1, 0] := by
    simp [shuffledFront, shuffleFrom, pickIndex, swapAt, List.range_succ, input]
  have hreg : ∀ i ∈ [0, 1], ∃ a, ([seedA, seedB] ++ [])[i]? = some a ∧ a.region ≠ 0 := by
    intro i hi
    simp only [List.mem_cons, List.not_mem_nil, or_false] at hi
    rcases hi with rfl | rfl
    · exact ⟨seedA, rfl, by simp [seedA]⟩
    · exact ⟨seedB, rfl, by simp [seedB]⟩
  have hinv : FrontInv ⟨[seedA, seedB], T, [], [0, 1], 2⟩ := ⟨by simp, hT, fun a ha => (sizes a ha).1, hreg⟩
  have hreg' : ∀ i ∈ [1, 0], ∃ a, ([seedA, seedB] ++ [])[i]? = some a ∧ a.region ≠ 0 := fun i hi => hreg i (by simp at hi ⊢; exact hi.symm)
  obtain ⟨new, e1', hn⟩ := newSpheres_spec params hT (interior := []) hinv.nonneg input_ok [1, 0] (fun i hi => by obtain ⟨a, h, -⟩ := hreg' i hi; exact ⟨a, h⟩) 0
  obtain rfl := Option.some.inj (e1'.symm.trans e1)
  have hnl : NewList noFeatures 0 1 [0, 1] ([seedA, seedB] ++ []) [p1 :: ps1, p2 :: ps2].flatten := fun p hp => by
    obtain ⟨i, g1, g2⟩ := flatten_new hreg' hn p hp
    exact ⟨i, by simp at g1 ⊢; exact g1.symm, g2⟩
  obtain ⟨s', b, N, g1, -, g3, -, g5, -, g7⟩ := endRound_spec (le_refl 0) (1000 * 1) hinv (inactive := []) (by simp) hnl
  have hb : b = false := by
    cases b with
    | false => rfl
    | true => have := (g5.1 rfl).1; simp at this
  subst hb
  have hp1 : ([seedA, seedB] ++ [] ++ [p1 :: ps1, p2 :: ps2].flatten)[2]? = some p1 := by simp
  have hp2 : ([seedA, seedB] ++ [] ++ [p1 :: ps1, p2 :: ps2].flatten)[3 + ps1.length]? = some p2 := by
    rw [show 3 + ps1.length = ps1.length + 1 + 1 + 1 by omega]
    simp
  obtain ⟨q1, k1, x1, -⟩ := g3.keep _ _ hp1
  obtain ⟨q2, k2, x2, -⟩ := g3.keep _ _ hp2
  refine ⟨_, s', N, hinv, input_ok, params, fun lf hf => ?_, 2, 3 + ps1.length, q1, q2, by simp [FrontState.all], by omega, k1, k2, by rw [x1, x2, h1, h2]⟩
  have ef : frontRecs [seedA, seedB] [] [1, 0] = some [seedB, seedA] := by simp [frontRecs, frontSphere]
  have es : splitFront act [1, 0] 0 = ([1, 0], []) := by simp [splitFront, a0, a1]
  unfold frontRound
  simp only [eshuf, ef, List.length_cons, List.length_nil, ea, es, e1]
  exact g1 lf hf

-- non-vacuity of C75: the state of the witness meets the hypotheses, and its round adds seeds
open TwoDarts in
example : ∃ (s s' : FrontState) (N : Nat), FrontInv s ∧ s.front ≠ [] ∧ input.OK ∧ FrontParams noFeatures ⟨none, none, none, none⟩ 0 1 ∧
    (∀ lf, N ≤ lf → frontRound id noFeatures ⟨none, none, none, none⟩ 0 1 lf 1 input s = some (s', false)) ∧ s.all.length < s'.all.length := by
  obtain ⟨s, s', N, h1, h2, h3, h4, i, j, p, q, h5, h6, -, h8, -⟩ := C49_coincident_seeds_false
  refine ⟨s, s', N, h1, fun h => ?_, h2, h3, h4, ?_⟩
  · have := h4 N (le_refl _)
    unfold frontRound at this
    simp [h, shuffledFront, shuffleFrom, frontRecs, C49_empty_front_undefined] at this
  · have := (List.getElem?_eq_some_iff.1 h8).1
    omega

-- non-vacuity of C50: a run that ends, after one round, because a surface sphere covers all darts
open TwoDarts in
example : ∃ out N, ∀ lf, N ≤ lf → generateInterior id ⟨[⟨fun _ => 0, 100, 0⟩], [], [], []⟩ 0 1 lf 1 [input] [seedA] = some (some out) := by
  obtain ⟨T, eT, hT⟩ := meshTree_spec (xs := [seedA]) (by simp) (le_refl _)
  obtain ⟨FT, eF, hFT⟩ := C62_buffers_partial ⟨[⟨fun _ => 0, 100, 0⟩], [], [], []⟩ (by simp) (by simp)
  have hok : Features.OK ⟨[⟨fun _ => 0, 100, 0⟩], [], [], []⟩ 0 := ⟨le_refl _, by norm_num, ⟨by simp, by simp⟩, ⟨by simp, by simp⟩, ⟨by simp, by simp⟩⟩
  have hP : FrontParams ⟨[⟨fun _ => 0, 100, 0⟩], [], [], []⟩ FT 0 1 := ⟨hok, hFT, by intro q hq; simp at hq, by norm_num⟩
  obtain ⟨ys, N1, a1, a2, a3, a4, a5⟩ := lipGrown (F := ⟨[⟨fun _ => 0, 100, 0⟩], [], [], []⟩) (rmax := 1) (le_refl 0) hT (by simp [seedA])
  obtain ⟨y, rfl⟩ := List.length_eq_one_iff.1 a2
  obtain ⟨y', hy, y1, y2, y3⟩ := a3.keep 0 seedA rfl
  obtain rfl : y = y' := by simpa using hy
  have hinv : FrontInv ⟨[y], T, [], [0], 1⟩ := ⟨by simp, a4, by simpa using a5, by simp [y2, seedA]⟩
  obtain ⟨s', b, new, N2, g1, g2, g3, g4, g5, g6, g7, g8, g9, g10, -⟩ := frontRound_spec monotone_id (fun _ => rfl) hP 1 input_ok hinv (by simp)
  have hnew : new = [] := by
    by_contra hne
    obtain ⟨p, hp⟩ := List.exists_mem_of_ne_nil _ hne
    obtain ⟨i, hi, a, ha, -, h⟩ := g6 p hp
    obtain rfl : i = 0 := by simpa using hi
    obtain rfl : y = a := by simpa using ha
    have h1 := h.features ⟨fun _ => 0, 100, 0⟩ (Or.inl (by simp))
    have h2 := h.near
    rw [y1] at h2
    have h3 : y.size ≤ 1 := y3
    simp only [seedA] at h1 h2
    linarith
  obtain rfl := g10 rfl hnew
  obtain ⟨zs, N3, c1, -⟩ := lipGrown (F := ⟨[⟨fun _ => 0, 100, 0⟩], [], [], []⟩) (rmax := 1) (le_refl 0) g2.tree (fun a ha => g2.nonneg a (by simp [ha]))
  have hst : startFront [y] 0 = [0] := by simp [startFront, y2, seedA]
  refine ⟨zs, max N1 (max N2 N3), fun lf hf => ?_⟩
  unfold generateInterior
  rw [eT, eF]
  simp only [a1 lf (by omega), hst, List.length_singleton]
  unfold frontRounds
  rw [g1 lf (by omega)]
  simp [c1 lf (by omega)]

end VoroCrust
