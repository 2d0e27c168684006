import Verif.Props.WeakShape

/-!
# The Voronoi cell of a seed in any position with gaps

C51 and C52 without general position: any number of bisectors may go through one corner.  What is asked is that no corner is beyond a bisector by a positive amount of at most `1e-10`.
-/

namespace VoroCrust

open Classical Filter Topology

variable {x : Nat → ℝ} {B : ℝ} {loc : List (Nat → ℝ)}

/-- Three planes of which `v` is the only common point. -/
def MeetAt (a b c : (Nat → ℝ) × (Nat → ℝ)) (v : Nat → ℝ) : Prop :=
  side a.1 a.2 v = 0 ∧ side b.1 b.2 v = 0 ∧ side c.1 c.2 v = 0 ∧ ∀ u, side a.1 a.2 u = 0 → side b.1 b.2 u = 0 → side c.1 c.2 u = 0 → ∀ k, k < 3 → u k = v k

/-- Gaps for a list of seeds. -/
def LocGap (x : Nat → ℝ) (B : ℝ) (loc : List (Nat → ℝ)) : Prop :=
  ∀ (a b c : Wall) (j : Nat) (y v : Nat → ℝ), LocWall x loc a → LocWall x loc b → LocWall x loc c → loc[j]? = some y → euclid 3 y x ≠ 0 → MeetAt (cellPl x B loc (some a)) (cellPl x B loc (some b)) (cellPl x B loc (some c)) v →
    side (midPoint x y) (bisectorNormal x y) v ≤ 0 ∨ side (midPoint x y) (bisectorNormal x y) v > 1e-10

/-- The state of the loop. -/
structure GapState (x : Nat → ℝ) (B : ℝ) (loc : List (Nat → ℝ)) (P : Poly) : Prop where
  weak : P.Weak (cellPl x B loc)
  walls : P.Walls (LocWall x loc)
  left : ∃ c, P.Live c

theorem GapState.start (hB : 0 < B) : GapState x B loc (initPoly x B) :=
  ⟨(CellState.start (loc := loc) hB).shape.weak, initPoly_locwalls x B loc, ⟨0, initPoly_live.2 (by omega)⟩⟩

theorem GapState.wall_loc {P : Poly} (h : GapState x B loc P) {c i : Nat} (hc : P.Live c) (hi : i < 3) : ∃ w, P.wall c i = some w ∧ LocWall x loc w := by
  obtain ⟨w, hw⟩ := Option.ne_none_iff_exists'.1 (h.weak.wf.wall c i hi hc)
  exact ⟨w, hw, h.walls c i w hw⟩

theorem GapState.solid_seed {P : Poly} (h : GapState x B loc P) (hB : 0 < B) : P.Solid x :=
  (h.weak.solid h.left x).2 fun c i hi hc => by
    obtain ⟨w, e, hw⟩ := h.wall_loc hc hi
    rw [e]
    exact (seed_inside hB hw).le

/-- The three walls of a corner meet there and nowhere else. -/
theorem GapState.meet {P : Poly} (h : GapState x B loc P) {c : Nat} {v : Nat → ℝ} (hv : P.pos c = some v) :
    ∃ w0 w1 w2, P.wall c 0 = some w0 ∧ P.wall c 1 = some w1 ∧ P.wall c 2 = some w2 ∧ LocWall x loc w0 ∧ LocWall x loc w1 ∧ LocWall x loc w2 ∧ MeetAt (cellPl x B loc (some w0)) (cellPl x B loc (some w1)) (cellPl x B loc (some w2)) v := by
  have hc := live_of_pos hv
  obtain ⟨w0, e0, l0⟩ := h.wall_loc hc (i := 0) (by omega)
  obtain ⟨w1, e1, l1⟩ := h.wall_loc hc (i := 1) (by omega)
  obtain ⟨w2, e2, l2⟩ := h.wall_loc hc (i := 2) (by omega)
  have o0 := h.weak.on (i := 0) (by omega) hv
  have o1 := h.weak.on (i := 1) (by omega) hv
  have o2 := h.weak.on (i := 2) (by omega) hv
  rw [e0] at o0
  rw [e1] at o1
  rw [e2] at o2
  refine ⟨w0, w1, w2, e0, e1, e2, l0, l1, l2, o0, o1, o2, fun u u0 u1 u2 => h.weak.only hv fun i hi => ?_⟩
  interval_cases i
  · rw [e0]; exact u0
  · rw [e1]; exact u1
  · rw [e2]; exact u2

/-- A corner is not beyond a bisector, or well beyond. -/
theorem GapState.sides {P : Poly} (h : GapState x B loc P) (hg : LocGap x B loc) {j : Nat} {y : Nat → ℝ} (hj : loc[j]? = some y) (hy : euclid 3 y x ≠ 0) {c : Nat} {v : Nat → ℝ} (hv : P.pos c = some v) :
    side (midPoint x y) (bisectorNormal x y) v ≤ 0 ∨ side (midPoint x y) (bisectorNormal x y) v > 1e-10 := by
  obtain ⟨w0, w1, w2, -, -, -, l0, l1, l2, hm⟩ := h.meet hv
  exact hg w0 w1 w2 j y v l0 l1 l2 hj hy hm

/-- One corner: nothing happens, or the polytope is cut with the bisector of a seed at another place that had a corner beyond. -/
theorem cellStep_gap (hB : 0 < B) (hg : LocGap x B loc) {P : Poly} (h : GapState x B loc P) (c : Nat) :
    ∃ R, cellStep x loc c P = some R ∧ GapState x B loc R ∧
      (R = P ∨ ∃ (j : Nat) (y : Nat → ℝ), loc[j]? = some y ∧ euclid 3 y x ≠ 0 ∧ (∃ v, P.pos c = some v ∧ side (midPoint x y) (bisectorNormal x y) v > 1e-10) ∧ (∀ z, R.Solid z ↔ P.Solid z ∧ side (midPoint x y) (bisectorNormal x y) z ≤ 0)) := by
  unfold cellStep
  cases hp : P.pos c with
  | none => exact ⟨P, rfl, h, Or.inl rfl⟩
  | some v =>
    simp only
    cases hb : bestSeed x v loc 0 none with
    | none => exact ⟨P, rfl, h, Or.inl rfl⟩
    | some b =>
      obtain ⟨l, j, y⟩ := b
      simp only
      by_cases h1 : l > 2
      · rw [if_pos h1]; exact ⟨P, rfl, h, Or.inl rfl⟩
      rw [if_neg h1]
      by_cases h2 : side (midPoint x y) (bisectorNormal x y) v ≤ 1e-10
      · rw [if_pos h2]; exact ⟨P, rfl, h, Or.inl rfl⟩
      rw [if_neg h2]
      have hj := bestSeed_index loc loc 0 none (by simp) (by simp) l j y hb
      have hy : euclid 3 y x ≠ 0 := fun h0 => by
        have hD := (((bestSeed_spec loc 0 none).2 l j y hb).1.resolve_left (by simp)).2.1
        have hc := dotDiff_cauchy x y v
        rw [dotDiff_self, distSq3_sq, h0] at hc
        have : (0 : ℝ) < dotDiff x y v := lt_of_lt_of_le (by norm_num) hD
        have := pow_pos this 2
        linarith
      have hs := not_le.1 h2
      have hpl := cellPl_pt (x := x) (B := B) hj
      have hx := (seed_inside (B := B) hB (Or.inr ⟨j, y, rfl, hj, hy⟩)).le
      unfold hgt at hx
      rw [hpl] at hx
      obtain ⟨R, e, hw, hne, hsol⟩ := h.weak.trim_solid hpl (fun a u hu => h.sides hg hj hy hu) hp hs (h.solid_seed hB) hx
      exact ⟨R, e, ⟨hw, Poly.Walls.trimVertex (Or.inr ⟨j, y, rfl, hj, hy⟩) _ _ _ _ _ h.walls e, hne⟩, Or.inr ⟨j, y, hj, hy, ⟨v, rfl, hs⟩, hsol⟩⟩

/-- **The loop over the corners ends.** -/
theorem cellLoop_gap_ends (hB : 0 < B) (hg : LocGap x B loc) (b : Nat) : ∀ (m : Nat) (c : Nat) (P : Poly), GapState x B loc P → (openSeeds x loc P).card ≤ b → P.num - c ≤ m →
    ∃ F, ∀ f, F ≤ f → ∃ R, cellLoop x loc f c P = some (some R) := by
  induction b using Nat.strong_induction_on with
  | _ b ihb =>
    intro m
    induction m with
    | zero =>
      intro c P _ _ hm
      refine ⟨1, fun f hf => ⟨P, ?_⟩⟩
      obtain ⟨f, rfl⟩ := Nat.exists_eq_add_of_le' hf
      unfold cellLoop
      rw [if_neg (by omega)]
    | succ m ihm =>
      intro c P h hb hm
      by_cases hc : c < P.num
      · obtain ⟨R, e, hR, hcase⟩ := cellStep_gap hB hg h c
        have key : ∃ F, ∀ f, F ≤ f → ∃ Q, cellLoop x loc f (c + 1) R = some (some Q) := by
          rcases hcase with rfl | ⟨j, y, hj, hy, ⟨v, hv, hs⟩, hsol⟩
          · exact ihm (c + 1) R h hb (by omega)
          · have hlt : (openSeeds x loc R).card < (openSeeds x loc P).card := by
              refine Finset.card_lt_card ⟨fun k hk => ?_, fun hsub => ?_⟩
              · unfold openSeeds at hk ⊢
                rw [Finset.mem_filter] at hk ⊢
                obtain ⟨h1, u, h2, a, w, h3, h4⟩ := hk
                refine ⟨h1, u, h2, ?_⟩
                by_contra hno
                push Not at hno
                have hin : R.Solid w := ⟨w, subset_convexHull ℝ _ ⟨a, h3⟩, fun _ _ => rfl⟩
                have := ((hsol w).1 hin).1.le hno
                linarith
              · have hmem : j ∈ openSeeds x loc P := by
                  unfold openSeeds
                  rw [Finset.mem_filter, Finset.mem_range]
                  exact ⟨(List.getElem?_eq_some_iff.1 hj).1, y, hj, c, v, hv, hs⟩
                have := hsub hmem
                unfold openSeeds at this
                rw [Finset.mem_filter] at this
                obtain ⟨-, u, h2, a, w, h3, h4⟩ := this
                obtain rfl := Option.some.inj (hj.symm.trans h2)
                have hin : R.Solid w := ⟨w, subset_convexHull ℝ _ ⟨a, h3⟩, fun _ _ => rfl⟩
                have := ((hsol w).1 hin).2
                norm_num at h4 this
                linarith
            exact ihb _ (lt_of_lt_of_le hlt hb) (R.num - (c + 1)) (c + 1) R hR (le_refl _) (le_refl _)
        obtain ⟨F, hF⟩ := key
        refine ⟨F + 1, fun f hf => ?_⟩
        obtain ⟨f, rfl⟩ := Nat.exists_eq_add_of_le' (show 1 ≤ f by omega)
        obtain ⟨Q, hQ⟩ := hF f (by omega)
        refine ⟨Q, ?_⟩
        unfold cellLoop
        rw [if_pos hc, e]
        exact hQ
      · refine ⟨1, fun f hf => ⟨P, ?_⟩⟩
        obtain ⟨f, rfl⟩ := Nat.exists_eq_add_of_le' hf
        unfold cellLoop
        rw [if_neg hc]

theorem cellLoop_gap (hB : 0 < B) (hg : LocGap x B loc) (f : Nat) : ∀ {c : Nat} {P R : Poly}, GapState x B loc P → cellLoop x loc f c P = some (some R) → GapState x B loc R := by
  induction f with
  | zero => intro c P R _ e; simp [cellLoop] at e
  | succ f ih =>
    intro c P R h e
    unfold cellLoop at e
    by_cases hc : c < P.num
    · rw [if_pos hc] at e
      obtain ⟨Q, e1, h1, -⟩ := cellStep_gap hB hg h c
      rw [e1] at e
      exact ih h1 e
    · rw [if_neg hc] at e
      obtain rfl := Option.some.inj (Option.some.inj e)
      exact h

/-- The corners that the loop leaves are in the cell of all examined seeds. -/
theorem settled_le (hsep : ∀ y ∈ loc, euclid 3 y x = 0 ∨ 2e-5 ≤ euclid 3 y x) {v : Nat → ℝ}
    (hgap : ∀ (j : Nat) (y : Nat → ℝ), loc[j]? = some y → euclid 3 y x ≠ 0 → side (midPoint x y) (bisectorNormal x y) v ≤ 0 ∨ side (midPoint x y) (bisectorNormal x y) v > 1e-10)
    (hset : CornerSettled x loc v) {y : Nat → ℝ} (hy : y ∈ loc) (hyx : euclid 3 y x ≠ 0) : side (midPoint x y) (bisectorNormal x y) v ≤ 0 := by
  have hpos : 0 < euclid 3 y x := lt_of_le_of_ne (euclid_nonneg 3 y x) (Ne.symm hyx)
  have hbig := (hsep y hy).resolve_left hyx
  have hsq : dotDiff x y y = euclid 3 y x ^ 2 := by rw [dotDiff_self, distSq3_sq]
  have hroot : Real.sqrt (dotDiff x y y) = euclid 3 y x := by rw [dotDiff_self, sqrt_distSq3]
  rw [side_bisector, hroot, hsq]
  have goal : dotDiff x y v ≤ euclid 3 y x ^ 2 / 2 → (dotDiff x y v - euclid 3 y x ^ 2 / 2) / euclid 3 y x ≤ 0 := fun q => div_nonpos_of_nonpos_of_nonneg (by linarith) hpos.le
  apply goal
  by_cases hD : dotDiff x y v < 1e-10
  · nlinarith
  have hDpos : 0 < dotDiff x y v := lt_of_lt_of_le (by norm_num) (not_lt.1 hD)
  obtain ⟨b1, b2⟩ := bestSeed_spec (x := x) (v := v) loc 0 none
  cases hb : bestSeed x v loc 0 none with
  | none => exact absurd ((b1.1 hb).2 y hy) hD
  | some b =>
    obtain ⟨l, j, z⟩ := b
    obtain ⟨g1, -, g3⟩ := b2 l j z hb
    have hl := (g3 y hy).resolve_left hD
    have two : 2 ≤ l → dotDiff x y v ≤ euclid 3 y x ^ 2 / 2 := fun q => by
      have := q.trans hl
      rw [le_div_iff₀ hDpos, hsq] at this
      linarith
    by_cases hl2 : l > 2
    · exact two hl2.le
    · have hs := (hset l j z hb).resolve_left hl2
      obtain ⟨hz, hDz, rfl⟩ := g1.resolve_left (by simp)
      have hDz0 : 0 < dotDiff x z v := lt_of_lt_of_le (by norm_num) hDz
      have hj := bestSeed_index loc loc 0 none (by simp) (by simp) _ j z hb
      have hzx : euclid 3 z x ≠ 0 := fun h0 => by
        have hc := dotDiff_cauchy x z v
        rw [dotDiff_self, distSq3_sq, h0] at hc
        have := pow_pos hDz0 2
        linarith
      have hz0 : 0 < euclid 3 z x := lt_of_le_of_ne (euclid_nonneg 3 z x) (Ne.symm hzx)
      have hle := (hgap j z hj hzx).resolve_right (not_lt.2 hs)
      rw [side_bisector, dotDiff_self, sqrt_distSq3, div_nonpos_iff] at hle
      refine two ?_
      rw [le_div_iff₀ hDz0, dotDiff_self]
      rcases hle with q | q <;> linarith [q.1, q.2]

theorem GapState.settled {P : Poly} (h : GapState x B loc P) (hg : LocGap x B loc) (hsep : ∀ y ∈ loc, euclid 3 y x = 0 ∨ 2e-5 ≤ euclid 3 y x) {c : Nat} {v : Nat → ℝ} (hv : P.pos c = some v)
    (hset : CornerSettled x loc v) {y : Nat → ℝ} (hy : y ∈ loc) (hyx : euclid 3 y x ≠ 0) : side (midPoint x y) (bisectorNormal x y) v ≤ 0 :=
  settled_le hsep (fun j z hj hz => h.sides hg hj hz hv) hset hy hyx

/-! ## The seeds -/

/-- **Gaps.**  No point at which three of the planes meet transversally is beyond a bisector by a positive amount of at most `1e-10`.  It may be on any number of them. -/
def GapPos (pts : Nat → Nat → ℝ) (num : Nat) (x : Nat → ℝ) (B : ℝ) : Prop :=
  ∀ a b c z v, SeedWall pts num x a → SeedWall pts num x b → SeedWall pts num x c → z < num → euclid 3 (pts z) x ≠ 0 → MeetAt (seedPl x B pts a) (seedPl x B pts b) (seedPl x B pts c) v →
    side (midPoint x (pts z)) (bisectorNormal x (pts z)) v ≤ 0 ∨ side (midPoint x (pts z)) (bisectorNormal x (pts z)) v > 1e-10

theorem MeetAt.ne {a b c : (Nat → ℝ) × (Nat → ℝ)} {v : Nat → ℝ} (h : MeetAt a b c v) : a ≠ b ∧ a ≠ c ∧ b ≠ c := by
  have key : ∀ p q : Nat → ℝ, ∃ d : Nat → ℝ, (∃ k, k < 3 ∧ d k ≠ 0) ∧ p 0 * d 0 + p 1 * d 1 + p 2 * d 2 = 0 ∧ q 0 * d 0 + q 1 * d 1 + q 2 * d 2 = 0 := by
    intro p q
    by_cases hcr : p 1 * q 2 - p 2 * q 1 = 0 ∧ p 2 * q 0 - p 0 * q 2 = 0 ∧ p 0 * q 1 - p 1 * q 0 = 0
    · obtain ⟨c1, c2, c3⟩ := hcr
      have orth : ∀ r : Nat → ℝ, ∃ d : Nat → ℝ, (∃ k, k < 3 ∧ d k ≠ 0) ∧ r 0 * d 0 + r 1 * d 1 + r 2 * d 2 = 0 := fun r => by
        by_cases h0 : r 0 = 0
        · exact ⟨fun k => if k = 0 then 1 else 0, ⟨0, by omega, by simp⟩, by simp [h0]⟩
        · exact ⟨fun k => if k = 0 then -r 1 else if k = 1 then r 0 else 0, ⟨1, by omega, by simpa using h0⟩, by simp; ring⟩
      by_cases hp : p 0 = 0 ∧ p 1 = 0 ∧ p 2 = 0
      · obtain ⟨d, h1, h2⟩ := orth q
        exact ⟨d, h1, by rw [hp.1, hp.2.1, hp.2.2]; ring, h2⟩
      · obtain ⟨d, h1, h2⟩ := orth p
        refine ⟨d, h1, h2, ?_⟩
        have e0 : p 0 * (q 0 * d 0 + q 1 * d 1 + q 2 * d 2) = 0 := by linear_combination q 0 * h2 + d 1 * c3 - d 2 * c2
        have e1 : p 1 * (q 0 * d 0 + q 1 * d 1 + q 2 * d 2) = 0 := by linear_combination q 1 * h2 - d 0 * c3 + d 2 * c1
        have e2 : p 2 * (q 0 * d 0 + q 1 * d 1 + q 2 * d 2) = 0 := by linear_combination q 2 * h2 + d 0 * c2 - d 1 * c1
        by_contra hno
        exact hp ⟨(mul_eq_zero.1 e0).resolve_right hno, (mul_eq_zero.1 e1).resolve_right hno, (mul_eq_zero.1 e2).resolve_right hno⟩
    · refine ⟨fun k => if k = 0 then p 1 * q 2 - p 2 * q 1 else if k = 1 then p 2 * q 0 - p 0 * q 2 else p 0 * q 1 - p 1 * q 0, ?_, by simp; ring, by simp; ring⟩
      by_contra hno
      push Not at hno
      have h0 := hno 0 (by omega)
      have h1 := hno 1 (by omega)
      have h2 := hno 2 (by omega)
      simp at h0 h1 h2
      exact hcr ⟨h0, h1, h2⟩
  obtain ⟨oa, ob, oc, hu⟩ := h
  have move : ∀ (p : (Nat → ℝ) × (Nat → ℝ)) (d : Nat → ℝ), side p.1 p.2 v = 0 → p.2 0 * d 0 + p.2 1 * d 1 + p.2 2 * d 2 = 0 → side p.1 p.2 (fun k => v k + d k) = 0 := fun p d h1 h2 => by
    have := side_diff p.1 p.2 v (fun k => v k + d k)
    simp only [add_sub_cancel_left] at this
    linarith
  have absurd' : ∀ d : Nat → ℝ, (∃ k, k < 3 ∧ d k ≠ 0) → a.2 0 * d 0 + a.2 1 * d 1 + a.2 2 * d 2 = 0 → b.2 0 * d 0 + b.2 1 * d 1 + b.2 2 * d 2 = 0 → c.2 0 * d 0 + c.2 1 * d 1 + c.2 2 * d 2 = 0 → False := fun d ⟨k, hk, hd⟩ h1 h2 h3 => by
    have := hu _ (move a d oa h1) (move b d ob h2) (move c d oc h3) k hk
    exact hd (by linarith)
  refine ⟨fun e => ?_, fun e => ?_, fun e => ?_⟩
  · obtain ⟨d, h1, h2, h3⟩ := key a.2 c.2
    exact absurd' d h1 h2 (by rw [← e]; exact h2) h3
  · obtain ⟨d, h1, h2, h3⟩ := key a.2 b.2
    exact absurd' d h1 h2 h3 (by rw [← e]; exact h2)
  · obtain ⟨d, h1, h2, h3⟩ := key a.2 b.2
    exact absurd' d h1 h2 h3 (by rw [← e]; exact h3)

/-- General position is the case without corners on further bisectors. -/
theorem GeneralPos.gap {pts : Nat → Nat → ℝ} {num : Nat} (h : GeneralPos pts num x B) : GapPos pts num x B := by
  intro a b c z v ha hb hc hz hzx hm
  obtain ⟨n1, n2, n3⟩ := hm.ne
  have on : ∀ w : Wall, Wall.pt z = w → side (seedPl x B pts w).1 (seedPl x B pts w).2 v = 0 → side (midPoint x (pts z)) (bisectorNormal x (pts z)) v ≤ 0 := fun w e h => by subst e; exact h.le
  by_cases ja : Wall.pt z = a
  · exact Or.inl (on a ja hm.1)
  by_cases jb : Wall.pt z = b
  · exact Or.inl (on b jb hm.2.1)
  by_cases jc : Wall.pt z = c
  · exact Or.inl (on c jc hm.2.2.1)
  exact (h a b c z v ha hb hc (fun e => n1 (by rw [e])) (fun e => n2 (by rw [e])) (fun e => n3 (by rw [e])) hz hzx ja jb jc hm.1 hm.2.1 hm.2.2.1).imp_left le_of_lt

theorem MeetAt.congr {a b c a' b' c' : (Nat → ℝ) × (Nat → ℝ)} {v : Nat → ℝ} (h : MeetAt a b c v) (ha : ∀ u, side a'.1 a'.2 u = side a.1 a.2 u) (hb : ∀ u, side b'.1 b'.2 u = side b.1 b.2 u) (hc : ∀ u, side c'.1 c'.2 u = side c.1 c.2 u) : MeetAt a' b' c' v := by
  unfold MeetAt
  simp only [ha, hb, hc]
  exact h

/-- Gaps for all seeds are so for every list of them. -/
theorem GapPos.toLoc {pts : Nat → Nat → ℝ} {num : Nat} {loc : List Nat} (h : GapPos pts num x B) (hloc : ∀ q ∈ loc, q < num) : LocGap x B (loc.map pts) := by
  intro a b c j y v ha hb hc hj hy hm
  rw [List.getElem?_map, Option.map_eq_some_iff] at hj
  obtain ⟨q, hq, rfl⟩ := hj
  exact h _ _ _ q v (toSeed_wall hloc ha).1 (toSeed_wall hloc hb).1 (toSeed_wall hloc hc).1 (hloc q (List.mem_of_getElem? hq)) hy (hm.congr ((toSeed_wall hloc ha).2 B) ((toSeed_wall hloc hb).2 B) ((toSeed_wall hloc hc).2 B))

/-! ## C51 -/

/-- **C51** (in part): for seeds with gaps and not nearer than 2e-5 to the seed of the cell, the cell that is returned is exactly the Voronoi cell: its corners span the points that are not nearer to any
other seed, examined or not.  Any number of seeds may be as near to a corner as the seed of the cell.  Missing: corners beyond a bisector by less than the tolerance (`C51_corners_partial`). -/
theorem C51_gap_partial (T : MTree) (hT : CellTree T) (ghost : Nat → Bool) (seed fuel' fuel : Nat) (r : ℝ) (hr : 0 < r) (l : List CellCorner) (h : getCell T ghost seed fuel' fuel r = some (some l))
    (hgp : ∀ m, m < fuel → GapPos T.P.pts T.P.num (T.P.pts seed) (10 * (r * 2 ^ (m + 1))))
    (hsep : ∀ z, z < T.P.num → euclid 3 (T.P.pts z) (T.P.pts seed) = 0 ∨ 2e-5 ≤ euclid 3 (T.P.pts z) (T.P.pts seed)) (z : Nat → ℝ) :
    (∃ p ∈ convexHull ℝ {v | ∃ q ∈ l, q.x = v}, ∀ k, k < 3 → p k = z k) ↔ ∀ y, y < T.P.num → euclid 3 z (T.P.pts seed) ≤ euclid 3 z (T.P.pts y) := by
  obtain ⟨m, q0, qs, P, hm, hq, hc, hrv, hl⟩ := getCell_round fuel h
  have hg := hgp m hm
  generalize hρ : r * 2 ^ (m + 1) = ρ at *
  have hρ0 : 0 < ρ := by rw [← hρ]; positivity
  obtain ⟨loc, e, hnd, h2, h3⟩ := C08_in_sphere_sound_complete T.P T.ln hT.tree (fun _ => true) (T.P.pts seed) ρ hρ0.le
  obtain rfl := Option.some.inj (e.symm.trans hq)
  rw [hT.dim] at h3
  have hloc : ∀ a ∈ q0 :: qs, a < T.P.num := fun a ha => (h2 a ha).1
  generalize q0 :: qs = loc at *
  have hgl := hg.toLoc hloc
  have hB : 0 < 10 * ρ := by linarith
  have hst := cellLoop_gap hB hgl fuel' (GapState.start hB) hc
  have hset : ∀ a v, P.pos a = some v → CornerSettled (T.P.pts seed) (loc.map T.P.pts) v := by
    rcases cellLoop_spec (x := T.P.pts seed) (loc := loc.map T.P.pts) fuel' (initPoly_wf _ (10 * ρ)) (c := 0) (by simp) with g | ⟨R, e1, -, e3⟩
    · rw [hc] at g; simp at g
    · rw [hc] at e1
      obtain rfl := Option.some.inj (Option.some.inj e1)
      exact e3
  have hset' : {v | ∃ q ∈ l, q.x = v} = {v | ∃ c, P.pos c = some v} := by
    ext v
    constructor
    · rintro ⟨q, hq, rfl⟩
      obtain ⟨a, v, -, -, hv, hres⟩ := resultCorners_mem _ hl q hq
      rw [(resultCorner_x hres).1]
      exact ⟨a, hv⟩
    · rintro ⟨a, hv⟩
      obtain ⟨q, hq, hres⟩ := resultCorners_all _ hl a v (Nat.zero_le _) (by have := hst.weak.wf.fin a (live_of_pos hv); omega) hv
      exact ⟨q, hq, (resultCorner_x hres).1⟩
  -- all walls are bisectors
  have hpt : ∀ c i, P.Live c → i < 3 → ∃ j y, P.wall c i = some (Wall.pt j) ∧ loc[j]? = some y ∧ euclid 3 (T.P.pts y) (T.P.pts seed) ≠ 0 := fun c i hlv hi => by
    obtain ⟨v, hv⟩ := Option.ne_none_iff_exists'.1 hlv
    obtain ⟨q, -, hres⟩ := resultCorners_all _ hl c v (Nat.zero_le _) (by have := hst.weak.wf.fin c hlv; omega) hv
    have := triple?_eq (resultCorner_x hres).2.2.1 i hi
    obtain ⟨w, hw, hlw⟩ := hst.wall_loc hlv hi
    rw [hw] at this
    rcases hlw with ⟨k, -, rfl⟩ | ⟨j, y, rfl, e1, e2⟩
    · simp [wallSeed] at this
    · rw [List.getElem?_map, Option.map_eq_some_iff] at e1
      obtain ⟨y, hy, rfl⟩ := e1
      exact ⟨j, y, hw, hy, e2⟩
  rw [hset']
  show P.Solid z ↔ _
  constructor
  · intro hz y hy
    by_cases hyx : euclid 3 (T.P.pts y) (T.P.pts seed) = 0
    · have := euclid_triangle 3 z (T.P.pts y) (T.P.pts seed)
      linarith
    rw [← bisector_le hyx]
    refine hz.le fun c v hv => ?_
    by_cases hin : euclid 3 (T.P.pts seed) (T.P.pts y) < ρ
    · refine hst.settled hgl (fun w hw => ?_) hv (hset c v hv) (List.mem_map_of_mem (h3 y hy rfl hin)) hyx
      obtain ⟨i, hi, rfl⟩ := List.mem_map.1 hw
      exact hsep i (hloc i hi)
    · have hlv := live_of_pos hv
      have hfar := farthestSq_le (x := T.P.pts seed) P.num c (hst.weak.wf.fin c hlv) v hv
      have h5 : euclid 3 v (T.P.pts seed) ≤ Real.sqrt (farthestSq (T.P.pts seed) P P.num) := by
        rw [← sqrt_distSq3]; exact Real.sqrt_le_sqrt hfar
      have hlt := far_side hyx (by rw [euclid_comm]; exact not_lt.1 hin) (show 2 * euclid 3 v (T.P.pts seed) < ρ + 1e-10 by linarith)
      obtain ⟨w0, w1, w2, -, -, -, l0, l1, l2, hme⟩ := hst.meet hv
      rcases hg _ _ _ y v (toSeed_wall hloc l0).1 (toSeed_wall hloc l1).1 (toSeed_wall hloc l2).1 hy hyx (hme.congr ((toSeed_wall hloc l0).2 _) ((toSeed_wall hloc l1).2 _) ((toSeed_wall hloc l2).2 _)) with g | g
      · exact g
      · linarith
  · intro hz
    refine (hst.weak.solid hst.left z).2 fun c i hi hlv => ?_
    obtain ⟨j, y, h4, h6, h7⟩ := hpt c i hlv hi
    rw [h4]
    unfold hgt
    rw [cellPl_pt (show (loc.map T.P.pts)[j]? = some (T.P.pts y) by rw [List.getElem?_map, h6]; rfl)]
    exact (bisector_le h7 z).2 (hz y (hloc y (List.mem_of_getElem? h6)))

/-! ## C52 -/

/-- One round: the loop ends for a polytope whose corners are left by it, and that is accepted only without a wall of the box. -/
theorem round_gap {T : MTree} (hT : CellTree T) {seed : Nat} (hs : seed < T.P.num) {ρ : ℝ} (hρ : 1e-11 ≤ ρ) (hg : GapPos T.P.pts T.P.num (T.P.pts seed) (10 * ρ)) (ghost : Nat → Bool) :
    ∃ F q qs, sphereQuery Rounding.exact T.P T.ln (fun _ => true) (inSphereTest ρ) (T.P.pts seed) ρ = some (q :: qs) ∧ ∀ fuel', F ≤ fuel' → ∃ P,
      cellLoop (T.P.pts seed) ((q :: qs).map T.P.pts) fuel' 0 (initPoly (T.P.pts seed) (10 * ρ)) = some (some P) ∧
      (2 * Real.sqrt (farthestSq (T.P.pts seed) P P.num) < ρ + 1e-10 → ∃ l, resultCorners ghost T.P.pts (T.P.pts seed) (q :: qs) P P.num 0 = some l) ∧
      ((∀ z, z < T.P.num → euclid 3 (T.P.pts z) (T.P.pts seed) = 0 ∨ 2e-5 ≤ euclid 3 (T.P.pts z) (T.P.pts seed)) →
        (∀ z, (∀ y, y < T.P.num → euclid 3 z (T.P.pts seed) ≤ euclid 3 z (T.P.pts y)) → 2 * euclid 3 z (T.P.pts seed) < ρ) → 2 * Real.sqrt (farthestSq (T.P.pts seed) P P.num) < ρ + 1e-10) := by
  have hρ0 : 0 < ρ := lt_of_lt_of_le (by norm_num) hρ
  obtain ⟨loc, e, hnd, h2, h3⟩ := C08_in_sphere_sound_complete T.P T.ln hT.tree (fun _ => true) (T.P.pts seed) ρ hρ0.le
  rw [hT.dim] at h3
  have hme : seed ∈ loc := h3 seed hs rfl (by rw [euclid_self]; exact hρ0)
  have hloc : ∀ a ∈ loc, a < T.P.num := fun a ha => (h2 a ha).1
  have hgl := hg.toLoc hloc
  have hB : 0 < 10 * ρ := by linarith
  obtain ⟨F, hF⟩ := cellLoop_gap_ends hB hgl _ _ 0 _ (GapState.start (x := T.P.pts seed) hB) (le_refl _) (le_refl _)
  cases loc with
  | nil => simp at hme
  | cons q qs =>
    refine ⟨F, q, qs, e, fun fuel' hf => ?_⟩
    generalize q :: qs = loc at *
    obtain ⟨P, hc⟩ := hF fuel' hf
    have hst := cellLoop_gap hB hgl fuel' (GapState.start hB) hc
    have hset : ∀ a v, P.pos a = some v → CornerSettled (T.P.pts seed) (loc.map T.P.pts) v := by
      rcases cellLoop_spec (x := T.P.pts seed) (loc := loc.map T.P.pts) fuel' (initPoly_wf _ (10 * ρ)) (c := 0) (by simp) with g | ⟨R, e1, -, e3⟩
      · rw [hc] at g; simp at g
      · rw [hc] at e1
        obtain rfl := Option.some.inj (Option.some.inj e1)
        exact e3
    refine ⟨P, hc, fun hacc => ?_, fun hsep hD => ?_⟩
    · rw [← Option.ne_none_iff_exists']
      intro hn
      obtain ⟨a, i, b, hi, ha, hb⟩ := resultCorners_none hst.weak.wf (cellLoop_walls fuel' (initPoly_walls _ _ _) hc) _ hn
      obtain ⟨v, hv⟩ := Option.ne_none_iff_exists'.1 ha
      have hb6 : b < 6 := by
        rcases hst.walls a i _ hb with ⟨k, hk, e1⟩ | ⟨j, y, e1, -⟩
        · simp only [Wall.box.injEq] at e1; omega
        · simp at e1
      have hon := hst.weak.on hi hv
      rw [hb] at hon
      have h1 := box_far hB hb6 hon
      have h4 := farthestSq_le (x := T.P.pts seed) P.num a (hst.weak.wf.fin a ha) v hv
      have h5 : euclid 3 v (T.P.pts seed) ≤ Real.sqrt (farthestSq (T.P.pts seed) P P.num) := by
        rw [← sqrt_distSq3]; exact Real.sqrt_le_sqrt h4
      norm_num at hρ hacc
      linarith
    · have hfar : farthestSq (T.P.pts seed) P P.num ≤ (ρ / 2) ^ 2 := by
        refine CellRun.farthestSq_bound (by positivity) _ fun c _ v hv => ?_
        have hv' := hD v (near_cell hD fun y hy hin => by
          by_cases hyx : euclid 3 (T.P.pts y) (T.P.pts seed) = 0
          · have := euclid_triangle 3 v (T.P.pts y) (T.P.pts seed)
            linarith
          · refine (bisector_le hyx v).1 (hst.settled hgl (fun w hw => ?_) hv (hset c v hv) (List.mem_map_of_mem (h3 y hy rfl hin)) hyx)
            obtain ⟨i, hi, rfl⟩ := List.mem_map.1 hw
            exact hsep i (hloc i hi))
        rw [distSq3_sq]
        exact pow_le_pow_left₀ (euclid_nonneg 3 v _) (by linarith) 2
      have : Real.sqrt (farthestSq (T.P.pts seed) P P.num) ≤ ρ / 2 := Real.sqrt_le_iff.2 ⟨by linarith, hfar⟩
      have : (0 : ℝ) < 1e-10 := by norm_num
      linarith

/-- **C52** (in part): for seeds with gaps and not nearer than 2e-5 to the seed of the cell, a cell is returned, at the latest in the first round whose search radius exceeds the diameter of the Voronoi cell
around the seed.  Missing: corners beyond a bisector by less than the tolerance; unbounded cells and a sizing of zero never end (`C52_single_seed_false`, `C52_zero_radius_false`). -/
theorem C52_gap_partial (T : MTree) (hT : CellTree T) (ghost : Nat → Bool) (seed : Nat) (hs : seed < T.P.num)
    (hsep : ∀ z, z < T.P.num → euclid 3 (T.P.pts z) (T.P.pts seed) = 0 ∨ 2e-5 ≤ euclid 3 (T.P.pts z) (T.P.pts seed)) (M : Nat) : ∀ (r : ℝ), 1e-11 ≤ r →
    (∀ m, m ≤ M → GapPos T.P.pts T.P.num (T.P.pts seed) (10 * (r * 2 ^ (m + 1)))) →
    (∀ z, (∀ y, y < T.P.num → euclid 3 z (T.P.pts seed) ≤ euclid 3 z (T.P.pts y)) → 2 * euclid 3 z (T.P.pts seed) < r * 2 ^ (M + 1)) →
    ∃ F, ∀ fuel' fuel, F ≤ fuel' → M < fuel → ∃ l, getCell T ghost seed fuel' fuel r = some (some l) := by
  induction M with
  | zero =>
    intro r hr hgp hD
    have hg := hgp 0 (le_refl _)
    rw [zero_add, pow_one] at hg hD
    obtain ⟨F, q, qs, e, hF⟩ := round_gap hT hs (ρ := r * 2) (by norm_num at hr ⊢; linarith) hg ghost
    refine ⟨F, fun fuel' fuel h1 h2 => ?_⟩
    obtain ⟨f, rfl⟩ := Nat.exists_eq_add_of_le' h2
    obtain ⟨P, hc, hres, hacc⟩ := hF fuel' h1
    have hacc' := hacc hsep hD
    obtain ⟨l, hl⟩ := hres hacc'
    refine ⟨l, ?_⟩
    rw [getCell]
    simp only [e, hc]
    rw [if_pos hacc', hl]
    rfl
  | succ M ih =>
    intro r hr hgp hD
    have hg := hgp 0 (Nat.zero_le _)
    rw [zero_add, pow_one] at hg
    obtain ⟨F, q, qs, e, hF⟩ := round_gap hT hs (ρ := r * 2) (by norm_num at hr ⊢; linarith) hg ghost
    obtain ⟨F', hF'⟩ := ih (r * 2) (by norm_num at hr ⊢; linarith) (fun m hm => by
      have := hgp (m + 1) (by omega)
      rwa [show r * 2 ^ (m + 1 + 1) = r * 2 * 2 ^ (m + 1) by ring] at this) (by rwa [show r * 2 ^ (M + 1 + 1) = r * 2 * 2 ^ (M + 1) by ring] at hD)
    refine ⟨max F F', fun fuel' fuel h1 h2 => ?_⟩
    obtain ⟨f, rfl⟩ := Nat.exists_eq_add_of_le' (show 1 ≤ fuel by omega)
    obtain ⟨P, hc, hres, -⟩ := hF fuel' (le_trans (le_max_left _ _) h1)
    rw [getCell]
    simp only [e, hc]
    by_cases hacc : 2 * Real.sqrt (farthestSq (T.P.pts seed) P P.num) < r * 2 + 1e-10
    · obtain ⟨l, hl⟩ := hres hacc
      rw [if_pos hacc, hl]
      exact ⟨l, rfl⟩
    · rw [if_neg hacc]
      exact hF' fuel' f (le_trans (le_max_right _ _) h1) (by omega)

end VoroCrust
