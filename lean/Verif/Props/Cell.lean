import Verif.Props.Trim
import Mathlib.Analysis.Convex.Hull
import Mathlib.Analysis.Convex.Function

/-! # One Voronoi cell: C51, C52, C77 -/

namespace VoroCrust

open Classical

/-! ## The loop over the corners -/

/-- A corner that the loop leaves alone. -/
def CornerSettled (x : Nat → ℝ) (loc : List (Nat → ℝ)) (v : Nat → ℝ) : Prop :=
  ∀ l j y, bestSeed x v loc 0 none = some (l, j, y) → l > 2 ∨ side (midPoint x y) (bisectorNormal x y) v ≤ 1e-10

theorem cellStep_spec {x : Nat → ℝ} {loc : List (Nat → ℝ)} {c : Nat} {P : Poly} (hP : P.WF) (hc : c < P.num) (hset : ∀ a, a < c → ∀ v, P.pos a = some v → CornerSettled x loc v) :
    ∃ R, cellStep x loc c P = some R ∧ R.WF ∧ ∀ a, a < c + 1 → ∀ v, R.pos a = some v → CornerSettled x loc v := by
  have stay : ∀ (h : ∀ v, P.pos c = some v → CornerSettled x loc v), ∀ a, a < c + 1 → ∀ v, P.pos a = some v → CornerSettled x loc v := fun h a ha v hv => by
    rcases Nat.lt_succ_iff_lt_or_eq.1 ha with g | rfl
    · exact hset a g v hv
    · exact h v hv
  unfold cellStep
  cases hp : P.pos c with
  | none => exact ⟨P, rfl, hP, stay (by simp [hp])⟩
  | some v =>
    simp only
    cases hb : bestSeed x v loc 0 none with
    | none => exact ⟨P, rfl, hP, stay fun w hw => by rw [hp] at hw; obtain rfl := Option.some.inj hw; intro l j y h; rw [hb] at h; simp at h⟩
    | some b =>
      obtain ⟨l, j, y⟩ := b
      simp only
      split_ifs with h1 h2
      · exact ⟨P, rfl, hP, stay fun w hw => by
          rw [hp] at hw; obtain rfl := Option.some.inj hw; intro l' j' y' h; rw [hb] at h; obtain ⟨rfl, rfl, rfl⟩ := by simpa using h
          exact Or.inl h1⟩
      · exact ⟨P, rfl, hP, stay fun w hw => by
          rw [hp] at hw; obtain rfl := Option.some.inj hw; intro l' j' y' h; rw [hb] at h; obtain ⟨rfl, rfl, rfl⟩ := by simpa using h
          exact Or.inr h2⟩
      · obtain ⟨R, e1, e2, e3, e4, -⟩ := C76_trim P hP j (midPoint x y) (bisectorNormal x y) c v hp (not_le.1 h2)
        refine ⟨R, e1, e2, fun a ha w hw => ?_⟩
        rcases Nat.lt_succ_iff_lt_or_eq.1 ha with g | rfl
        · rcases e4 a (by omega) with g' | g'
          · exact hset a g w (by rw [← g']; exact hw)
          · rw [g'.1] at hw; simp at hw
        · rw [e3] at hw; simp at hw

theorem cellLoop_spec {x : Nat → ℝ} {loc : List (Nat → ℝ)} (f : Nat) : ∀ {c : Nat} {P : Poly}, P.WF → (∀ a, a < c → ∀ v, P.pos a = some v → CornerSettled x loc v) →
    cellLoop x loc f c P = some none ∨ ∃ R, cellLoop x loc f c P = some (some R) ∧ R.WF ∧ ∀ a v, R.pos a = some v → CornerSettled x loc v := by
  induction f with
  | zero => intro c P _ _; exact Or.inl rfl
  | succ f ih =>
    intro c P hP hset
    unfold cellLoop
    split_ifs with hc
    · obtain ⟨R, e1, e2, e3⟩ := cellStep_spec hP hc hset
      rw [e1]
      exact ih e2 e3
    · exact Or.inr ⟨P, rfl, hP, fun a v hv => hset a (by have := hP.fin a (by simp [Poly.Live, hv]); omega) v hv⟩

/-! ## The seed with the least `lambda` -/

/-- The squared length of a difference. -/
theorem dotDiff_self (x y : Nat → ℝ) : dotDiff x y y = distSq3 y x := rfl

theorem bestSeed_spec {x v : Nat → ℝ} (ys : List (Nat → ℝ)) : ∀ (j : Nat) (b : Option (ℝ × Nat × (Nat → ℝ))),
    (bestSeed x v ys j b = none ↔ b = none ∧ ∀ y ∈ ys, dotDiff x y v < 1e-10) ∧
    ∀ l a z, bestSeed x v ys j b = some (l, a, z) →
      (b = some (l, a, z) ∨ (z ∈ ys ∧ 1e-10 ≤ dotDiff x z v ∧ l = dotDiff x z z / dotDiff x z v)) ∧ (∀ l' a' z', b = some (l', a', z') → l ≤ l') ∧
        ∀ y ∈ ys, dotDiff x y v < 1e-10 ∨ l ≤ dotDiff x y y / dotDiff x y v := by
  induction ys with
  | nil =>
    intro j b
    refine ⟨by simp [bestSeed], fun l a z h => ⟨Or.inl h, fun l' a' z' h' => ?_, by simp⟩⟩
    rw [show bestSeed x v [] j b = b from rfl, h'] at h
    obtain ⟨rfl, -⟩ := by simpa using h
    exact le_refl _
  | cons y ys ih =>
    intro j b
    unfold bestSeed
    split_ifs with hd
    · obtain ⟨h1, h2⟩ := ih (j + 1) b
      refine ⟨by rw [h1]; simp [hd], fun l a z h => ?_⟩
      obtain ⟨g1, g2, g3⟩ := h2 l a z h
      exact ⟨g1.imp_right fun g => ⟨List.mem_cons_of_mem _ g.1, g.2⟩, g2, fun w hw => by
        rcases List.mem_cons.1 hw with rfl | hw
        · exact Or.inl hd
        · exact g3 w hw⟩
    · have take : ∀ b0 : Option (ℝ × Nat × (Nat → ℝ)), (∀ l' a' z', b0 = some (l', a', z') → dotDiff x y y / dotDiff x y v ≤ l') →
          (bestSeed x v ys (j + 1) (some (dotDiff x y y / dotDiff x y v, j, y)) = none ↔ b0 = none ∧ ∀ w ∈ y :: ys, dotDiff x w v < 1e-10) ∧
          ∀ l a z, bestSeed x v ys (j + 1) (some (dotDiff x y y / dotDiff x y v, j, y)) = some (l, a, z) →
            (b0 = some (l, a, z) ∨ (z ∈ y :: ys ∧ 1e-10 ≤ dotDiff x z v ∧ l = dotDiff x z z / dotDiff x z v)) ∧ (∀ l' a' z', b0 = some (l', a', z') → l ≤ l') ∧
              ∀ w ∈ y :: ys, dotDiff x w v < 1e-10 ∨ l ≤ dotDiff x w w / dotDiff x w v := by
        intro b0 hb0
        obtain ⟨h1, h2⟩ := ih (j + 1) (some (dotDiff x y y / dotDiff x y v, j, y))
        refine ⟨by rw [h1]; simp [hd], fun l a z h => ?_⟩
        obtain ⟨g1, g2, g3⟩ := h2 l a z h
        have hl := g2 _ _ _ rfl
        refine ⟨?_, fun l' a' z' h' => hl.trans (hb0 _ _ _ h'), fun w hw => ?_⟩
        · rcases g1 with g | g
          · obtain ⟨rfl, rfl, rfl⟩ := by simpa using g
            exact Or.inr ⟨List.mem_cons_self, not_lt.1 hd, rfl⟩
          · exact Or.inr ⟨List.mem_cons_of_mem _ g.1, g.2⟩
        · rcases List.mem_cons.1 hw with rfl | hw
          · exact Or.inr hl
          · exact g3 w hw
      cases b with
      | none => exact take none (by simp)
      | some b =>
        obtain ⟨l0, a0, z0⟩ := b
        simp only
        split_ifs with hlt
        · have hh := take (some (l0, a0, z0)) (fun l' a' z' h' => by
            obtain ⟨rfl, -⟩ := by simpa using h'
            exact hlt.le)
          simp only [reduceCtorEq] at hh
          exact hh
        · obtain ⟨h1, h2⟩ := ih (j + 1) (some (l0, a0, z0))
          refine ⟨by rw [h1]; simp, fun l a z h => ?_⟩
          obtain ⟨g1, g2, g3⟩ := h2 l a z h
          refine ⟨g1.imp_right fun g => ⟨List.mem_cons_of_mem _ g.1, g.2⟩, g2, fun w hw => ?_⟩
          rcases List.mem_cons.1 hw with rfl | hw
          · exact Or.inr ((g2 _ _ _ rfl).trans (not_lt.1 hlt))
          · exact g3 w hw

theorem dotDiff_cauchy (x y v : Nat → ℝ) : dotDiff x y v ^ 2 ≤ dotDiff x y y * dotDiff x v v := by
  unfold dotDiff
  nlinarith [sq_nonneg ((y 0 - x 0) * (v 1 - x 1) - (y 1 - x 1) * (v 0 - x 0)), sq_nonneg ((y 0 - x 0) * (v 2 - x 2) - (y 2 - x 2) * (v 0 - x 0)),
    sq_nonneg ((y 1 - x 1) * (v 2 - x 2) - (y 2 - x 2) * (v 1 - x 1))]

theorem dotDiff_nonneg (x y : Nat → ℝ) : 0 ≤ dotDiff x y y := by
  unfold dotDiff
  nlinarith [mul_self_nonneg (y 0 - x 0), mul_self_nonneg (y 1 - x 1), mul_self_nonneg (y 2 - x 2)]

/-- The value of the bisector, without the normalisation. -/
theorem side_bisector (x y v : Nat → ℝ) : side (midPoint x y) (bisectorNormal x y) v = (dotDiff x y v - dotDiff x y y / 2) / Real.sqrt (dotDiff x y y) := by
  have : dotDiff x y v - dotDiff x y y / 2 = (y 0 - x 0) * (v 0 - 0.5 * (y 0 + x 0)) + (y 1 - x 1) * (v 1 - 0.5 * (y 1 + x 1)) + (y 2 - x 2) * (v 2 - 0.5 * (y 2 + x 2)) := by
    unfold dotDiff; ring
  rw [this]
  unfold side midPoint bisectorNormal
  ring

/-- A settled corner is not closer to an examined seed than to the seed of the cell, up to the tolerances. -/
theorem CornerSettled.bound {x v : Nat → ℝ} {loc : List (Nat → ℝ)} (h : CornerSettled x loc v) {δ : ℝ} (hδ : 0 < δ) (hsep : ∀ z ∈ loc, distSq3 z x = 0 ∨ δ ≤ Real.sqrt (distSq3 z x)) {y : Nat → ℝ} (hy : y ∈ loc) :
    distSq3 v x ≤ distSq3 v y + 2e-10 + 8e-10 * distSq3 v x / δ := by
  have hV := dotDiff_nonneg x v
  have hY := dotDiff_nonneg x y
  have hid : distSq3 v y = dotDiff x v v - 2 * dotDiff x y v + dotDiff x y y := by unfold distSq3 dotDiff; ring
  rw [hid, ← dotDiff_self]
  have hq : 0 ≤ 8e-10 * dotDiff x v v / δ := by positivity
  suffices hs : 2 * dotDiff x y v - dotDiff x y y ≤ 2e-10 + 8e-10 * dotDiff x v v / δ by linarith
  by_cases hD : dotDiff x y v < 1e-10
  · linarith
  have hDpos : 0 < dotDiff x y v := by have := not_lt.1 hD; have : (0 : ℝ) < 1e-10 := by norm_num
                                       linarith
  obtain ⟨b1, b2⟩ := bestSeed_spec (x := x) (v := v) loc 0 none
  cases hb : bestSeed x v loc 0 none with
  | none => exact absurd ((b1.1 hb).2 y hy) hD
  | some b =>
    obtain ⟨l, j, z⟩ := b
    obtain ⟨g1, -, g3⟩ := b2 l j z hb
    have hl := (g3 y hy).resolve_left hD
    obtain ⟨hz, hDz, rfl⟩ := g1.resolve_left (by simp)
    have hDz0 : 0 < dotDiff x z v := by have : (0 : ℝ) < 1e-10 := by norm_num
                                        linarith
    by_cases hneg : 2 * dotDiff x y v - dotDiff x y y ≤ 0
    · linarith
    push Not at hneg
    by_cases hl2 : dotDiff x z z / dotDiff x z v > 2
    · have : 2 < dotDiff x y y / dotDiff x y v := lt_of_lt_of_le hl2 hl
      rw [lt_div_iff₀ hDpos] at this
      linarith
    · have hside := (h _ _ _ hb).resolve_left hl2
      rw [side_bisector] at hside
      have hcz := dotDiff_cauchy x z v
      have hZ0 : dotDiff x z z ≠ 0 := by
        intro h0
        rw [h0, zero_mul] at hcz
        have := pow_pos hDz0 2
        linarith
      have hZ : 0 < dotDiff x z z := lt_of_le_of_ne (dotDiff_nonneg x z) (Ne.symm hZ0)
      have hs : 0 < Real.sqrt (dotDiff x z z) := Real.sqrt_pos.2 hZ
      have hss : Real.sqrt (dotDiff x z z) * Real.sqrt (dotDiff x z z) = dotDiff x z z := Real.mul_self_sqrt hZ.le
      have hδs : δ ≤ Real.sqrt (dotDiff x z z) := (hsep z hz).resolve_left hZ0
      rw [div_le_iff₀ hs] at hside
      rw [div_le_div_iff₀ hDz0 hDpos] at hl
      rw [gt_iff_lt, not_lt, div_le_iff₀ hDz0] at hl2
      have hcy := dotDiff_cauchy x y v
      have hDV : dotDiff x y v ≤ 2 * dotDiff x v v := by
        have h1 : dotDiff x y v * dotDiff x y v ≤ (2 * dotDiff x v v) * dotDiff x y v := by nlinarith
        exact le_of_mul_le_mul_right h1 hDpos
      -- the excess times the distance of the closest seed
      have k1 : (2 * dotDiff x y v - dotDiff x y y) * dotDiff x z v ≤ dotDiff x y v * (2e-10 * Real.sqrt (dotDiff x z z)) := by nlinarith
      have k2 : (2 * dotDiff x y v - dotDiff x y y) * (dotDiff x z z / 2) ≤ dotDiff x y v * (2e-10 * Real.sqrt (dotDiff x z z)) :=
        le_trans (mul_le_mul_of_nonneg_left (by linarith) hneg.le) k1
      have k3 : (2 * dotDiff x y v - dotDiff x y y) * Real.sqrt (dotDiff x z z) ≤ 4e-10 * dotDiff x y v := by
        have : ((2 * dotDiff x y v - dotDiff x y y) * Real.sqrt (dotDiff x z z)) * Real.sqrt (dotDiff x z z) ≤ (4e-10 * dotDiff x y v) * Real.sqrt (dotDiff x z z) := by
          rw [mul_assoc, hss]; linarith
        exact le_of_mul_le_mul_right this hs
      have k4 : (2 * dotDiff x y v - dotDiff x y y) * δ ≤ 8e-10 * dotDiff x v v := by nlinarith
      have k5 : 2 * dotDiff x y v - dotDiff x y y ≤ 8e-10 * dotDiff x v v / δ := by rw [le_div_iff₀ hδ]; exact k4
      linarith

/-! ## The result -/

theorem farthestSq_le {x : Nat → ℝ} {P : Poly} (m : Nat) : ∀ c, c < m → ∀ v, P.pos c = some v → distSq3 v x ≤ farthestSq x P m := by
  induction m with
  | zero => intro c hc; omega
  | succ m ih =>
    intro c hc v hv
    unfold farthestSq
    rcases Nat.lt_succ_iff_lt_or_eq.1 hc with g | rfl
    · cases hp : P.pos m with
      | none => exact ih c g v hv
      | some w =>
        simp only
        split_ifs with h
        · exact (ih c g v hv).trans h.le
        · exact ih c g v hv
    · simp only [hv]
      split_ifs with h
      · exact le_refl _
      · exact not_lt.1 h

/-- What a returned cell is made from. -/
theorem getCell_form {T : MTree} {ghost : Nat → Bool} {seed fuel' : Nat} (f : Nat) : ∀ {r : ℝ} {l : List CellCorner}, 0 ≤ r → getCell T ghost seed fuel' f r = some (some l) →
    ∃ (ρ : ℝ) (q : Nat) (qs : List Nat) (P : Poly), 0 ≤ ρ ∧ sphereQuery Rounding.exact T.P T.ln (fun _ => true) (inSphereTest ρ) (T.P.pts seed) ρ = some (q :: qs) ∧
      cellLoop (T.P.pts seed) ((q :: qs).map T.P.pts) fuel' 0 (initPoly (T.P.pts seed) (10 * ρ)) = some (some P) ∧ 2 * Real.sqrt (farthestSq (T.P.pts seed) P P.num) < ρ + 1e-10 ∧
      resultCorners ghost T.P.pts (T.P.pts seed) (q :: qs) P P.num 0 = some l := by
  induction f with
  | zero => intro r l _ h; simp [getCell] at h
  | succ f ih =>
    intro r l hr h
    unfold getCell at h
    cases hq : sphereQuery Rounding.exact T.P T.ln (fun _ => true) (inSphereTest (r * 2)) (T.P.pts seed) (r * 2) with
    | none => rw [hq] at h; simp at h
    | some q =>
      rw [hq] at h
      cases q with
      | nil => exact ih (by positivity) h
      | cons q qs =>
        simp only at h
        cases hc : cellLoop (T.P.pts seed) ((q :: qs).map T.P.pts) fuel' 0 (initPoly (T.P.pts seed) (10 * (r * 2))) with
        | none => rw [hc] at h; simp at h
        | some o =>
          rw [hc] at h
          cases o with
          | none => simp at h
          | some P =>
            simp only at h
            split_ifs at h with hrv
            · refine ⟨r * 2, q, qs, P, by positivity, hq, hc, hrv, ?_⟩
              simpa using h
            · exact ih (by positivity) h

theorem resultCorners_mem {ghost : Nat → Bool} {pts : Nat → Nat → ℝ} {x : Nat → ℝ} {loc : List Nat} {P : Poly} (k : Nat) : ∀ {c : Nat} {l : List CellCorner}, resultCorners ghost pts x loc P k c = some l →
    ∀ q ∈ l, ∃ a v, c ≤ a ∧ a < c + k ∧ P.pos a = some v ∧ resultCorner ghost pts x loc P a v = some q := by
  induction k with
  | zero => intro c l h q hq; simp [resultCorners] at h; subst h; simp at hq
  | succ k ih =>
    intro c l h q hq
    unfold resultCorners at h
    cases hp : P.pos c with
    | none =>
      rw [hp] at h
      obtain ⟨a, v, h1, h2, h3⟩ := ih h q hq
      exact ⟨a, v, by omega, by omega, h3⟩
    | some v =>
      rw [hp] at h
      simp only at h
      cases ha : resultCorner ghost pts x loc P c v with
      | none => rw [ha] at h; simp at h
      | some b =>
        cases hl : resultCorners ghost pts x loc P k (c + 1) with
        | none => rw [ha, hl] at h; simp at h
        | some l' =>
          rw [ha, hl] at h
          simp only [Option.some.injEq] at h
          subst h
          rcases List.mem_cons.1 hq with rfl | hq
          · exact ⟨c, v, le_refl _, by omega, hp, ha⟩
          · obtain ⟨a, w, h1, h2, h3⟩ := ih hl q hq
            exact ⟨a, w, by omega, by omega, h3⟩

theorem resultCorner_x {ghost : Nat → Bool} {pts : Nat → Nat → ℝ} {x : Nat → ℝ} {loc : List Nat} {P : Poly} {a : Nat} {v : Nat → ℝ} {q : CellCorner} (h : resultCorner ghost pts x loc P a v = some q) :
    q.x = v ∧ q.owner = cornerOwner ghost pts v (Real.sqrt (distSq3 v x)) loc none ∧ triple? (fun i => wallSeed loc (P.wall a i)) = some q.seeds ∧
      triple? (slotIndex P a) = some q.nbr := by
  unfold resultCorner at h
  split at h
  · obtain rfl := Option.some.inj h
    exact ⟨rfl, rfl, by assumption, by assumption⟩
  · simp at h

/-! ## C51 -/

/-- A tree over the seeds of a mesh. -/
structure CellTree (T : MTree) : Prop where
  tree : RealTree T.P T.ln
  dim : T.P.dim = 3

/-- **C51** (in part).  Up to the tolerances no seed of all, examined or not, is closer to a corner of the returned cell than the seed of the cell itself.  Not proved: that no corner is missing, that is, that the
returned polytope is not smaller than the Voronoi cell. -/
theorem C51_corners_partial (T : MTree) (hT : CellTree T) (ghost : Nat → Bool) (seed fuel' fuel : Nat) (r : ℝ) (hr : 0 ≤ r) (l : List CellCorner)
    (h : getCell T ghost seed fuel' fuel r = some (some l)) (δ : ℝ) (hδ : 0 < δ) (hsep : ∀ z, z < T.P.num → euclid 3 (T.P.pts z) (T.P.pts seed) = 0 ∨ δ ≤ euclid 3 (T.P.pts z) (T.P.pts seed)) :
    ∀ q ∈ l, ∀ y, y < T.P.num →
      euclid 3 q.x (T.P.pts seed) ^ 2 ≤ euclid 3 q.x (T.P.pts y) ^ 2 + 2e-10 * (1 + euclid 3 q.x (T.P.pts seed)) + 8e-10 * euclid 3 q.x (T.P.pts seed) ^ 2 / δ := by
  obtain ⟨ρ, q0, qs, P, hρ, hq, hc, hrv, hl⟩ := getCell_form fuel hr h
  obtain ⟨loc, e, -, h2, h3⟩ := C08_in_sphere_sound_complete T.P T.ln hT.tree (fun _ => true) (T.P.pts seed) ρ hρ
  obtain rfl := Option.some.inj (e.symm.trans hq)
  rw [hT.dim] at h3
  rcases cellLoop_spec (x := T.P.pts seed) (loc := (q0 :: qs).map T.P.pts) fuel' (initPoly_wf _ _) (c := 0) (by simp) with g | ⟨R, e1, e2, e3⟩
  · rw [hc] at g; simp at g
  rw [hc] at e1
  obtain rfl := Option.some.inj (Option.some.inj e1)
  intro q hql y hy
  obtain ⟨a, v, -, ha, hv, hres⟩ := resultCorners_mem _ hl q hql
  rw [(resultCorner_x hres).1]
  have n1 := euclid_nonneg 3 v (T.P.pts seed)
  have n2 := euclid_nonneg 3 v (T.P.pts y)
  have hq8 : 0 ≤ 8e-10 * euclid 3 v (T.P.pts seed) ^ 2 / δ := by positivity
  by_cases hin : euclid 3 (T.P.pts seed) (T.P.pts y) < ρ
  · have hmem := h3 y hy rfl hin
    have := (e3 a v hv).bound hδ (fun z hz => by
      obtain ⟨i, hi, rfl⟩ := List.mem_map.1 hz
      have hs := hsep i (h2 i hi).1
      rw [sqrt_distSq3, distSq3_sq]
      exact hs.imp_left fun g => by rw [g]; norm_num) (List.mem_map_of_mem hmem)
    rw [distSq3_sq, distSq3_sq] at this
    linarith
  · have hfar := farthestSq_le (x := T.P.pts seed) P.num a (by omega) v hv
    have h5 : euclid 3 v (T.P.pts seed) ≤ Real.sqrt (farthestSq (T.P.pts seed) P P.num) := by
      rw [← sqrt_distSq3]; exact Real.sqrt_le_sqrt hfar
    have h6 := euclid_triangle 3 (T.P.pts seed) v (T.P.pts y)
    rw [euclid_comm 3 (T.P.pts seed) v] at h6
    by_cases hle : euclid 3 v (T.P.pts seed) ≤ euclid 3 v (T.P.pts y)
    · have := mul_self_le_mul_self n1 hle
      nlinarith
    · push Not at hle hin
      have h7 : euclid 3 v (T.P.pts seed) - euclid 3 v (T.P.pts y) ≤ 1e-10 := by linarith
      have h8 : (euclid 3 v (T.P.pts seed) - euclid 3 v (T.P.pts y)) * (euclid 3 v (T.P.pts seed) + euclid 3 v (T.P.pts y)) ≤ 1e-10 * (2 * euclid 3 v (T.P.pts seed)) :=
        mul_le_mul h7 (by linarith) (by linarith) (by norm_num)
      nlinarith

/-- The difference of the squared distances to two points is affine. -/
theorem affine_bisector (x y : Nat → ℝ) (B : ℝ) : Convex ℝ {p : Nat → ℝ | euclid 3 p x ^ 2 - euclid 3 p y ^ 2 ≤ B} := by
  have key : ∀ p : Nat → ℝ, euclid 3 p x ^ 2 - euclid 3 p y ^ 2 =
      2 * ((y 0 - x 0) * p 0 + (y 1 - x 1) * p 1 + (y 2 - x 2) * p 2) + (x 0 ^ 2 + x 1 ^ 2 + x 2 ^ 2 - y 0 ^ 2 - y 1 ^ 2 - y 2 ^ 2) := fun p => by
    rw [← distSq3_sq, ← distSq3_sq]; unfold distSq3; ring
  intro p hp q hq a b ha hb hab
  simp only [Set.mem_ofPred_eq, key, Pi.add_apply, Pi.smul_apply, smul_eq_mul] at *
  have hb' : b = 1 - a := by linarith
  subst hb'
  nlinarith

/-- **C51** (in part): the same for every point of the convex hull of the corners, the cell as a solid. -/
theorem C51_cell_partial (T : MTree) (hT : CellTree T) (ghost : Nat → Bool) (seed fuel' fuel : Nat) (r : ℝ) (hr : 0 ≤ r) (l : List CellCorner)
    (h : getCell T ghost seed fuel' fuel r = some (some l)) (δ R : ℝ) (hδ : 0 < δ) (hsep : ∀ z, z < T.P.num → euclid 3 (T.P.pts z) (T.P.pts seed) = 0 ∨ δ ≤ euclid 3 (T.P.pts z) (T.P.pts seed))
    (hR : ∀ q ∈ l, euclid 3 q.x (T.P.pts seed) ≤ R) (p : Nat → ℝ) (hp : p ∈ convexHull ℝ {v | ∃ q ∈ l, q.x = v}) (y : Nat) (hy : y < T.P.num) :
    euclid 3 p (T.P.pts seed) ^ 2 ≤ euclid 3 p (T.P.pts y) ^ 2 + 2e-10 * (1 + R) + 8e-10 * R ^ 2 / δ := by
  have hsub : {v | ∃ q ∈ l, q.x = v} ⊆ {p : Nat → ℝ | euclid 3 p (T.P.pts seed) ^ 2 - euclid 3 p (T.P.pts y) ^ 2 ≤ 2e-10 * (1 + R) + 8e-10 * R ^ 2 / δ} := by
    rintro v ⟨q, hq, rfl⟩
    have h1 := C51_corners_partial T hT ghost seed fuel' fuel r hr l h δ hδ hsep q hq y hy
    have h2 := hR q hq
    have h3 : 8e-10 * euclid 3 q.x (T.P.pts seed) ^ 2 / δ ≤ 8e-10 * R ^ 2 / δ := by
      have := pow_le_pow_left₀ (euclid_nonneg 3 q.x (T.P.pts seed)) h2 2
      gcongr
    simp only [Set.mem_ofPred_eq]
    linarith
  have := convexHull_min hsub (affine_bisector _ _ _) hp
  simp only [Set.mem_ofPred_eq] at this
  linarith

/-! ## C52 -/

/-- Nothing is cut. -/
theorem cellLoop_idle {x : Nat → ℝ} {loc : List (Nat → ℝ)} (h : ∀ v, bestSeed x v loc 0 none = none) (f : Nat) : ∀ (c : Nat) (P : Poly),
    (cellLoop x loc f c P = some none ∨ cellLoop x loc f c P = some (some P)) ∧ (P.num - c < f → cellLoop x loc f c P = some (some P)) := by
  have hstep : ∀ c P, cellStep x loc c P = some P := fun c P => by
    unfold cellStep
    cases P.pos c with
    | none => rfl
    | some v => simp [h v]
  induction f with
  | zero => intro c P; exact ⟨Or.inl rfl, by omega⟩
  | succ f ih =>
    intro c P
    unfold cellLoop
    split_ifs with hc
    · rw [hstep]
      simp only
      exact ⟨(ih (c + 1) P).1, fun hf => (ih (c + 1) P).2 (by omega)⟩
    · exact ⟨Or.inr rfl, fun _ => rfl⟩

theorem bestSeed_coincident {x : Nat → ℝ} {loc : List (Nat → ℝ)} (h : ∀ y ∈ loc, euclid 3 y x = 0) (v : Nat → ℝ) : bestSeed x v loc 0 none = none := by
  refine (bestSeed_spec loc 0 none).1.2 ⟨rfl, fun y hy => ?_⟩
  have h0 : distSq3 y x = 0 := by rw [distSq3_sq, h y hy]; norm_num
  have h1 := dotDiff_cauchy x y v
  rw [dotDiff_self, h0, zero_mul] at h1
  have : dotDiff x y v = 0 := by
    have := le_antisymm h1 (sq_nonneg _)
    exact pow_eq_zero_iff (by norm_num) |>.1 this
  rw [this]; norm_num

theorem box_distSq (x : Nat → ℝ) (ρ : ℝ) {c : Nat} (hc : c < 8) {v : Nat → ℝ} (h : (initPoly x ρ).pos c = some v) : distSq3 v x = 3 * ρ ^ 2 := by
  unfold initPoly at h
  simp only [hc, if_true, Option.some.injEq] at h
  subst h
  unfold distSq3
  interval_cases c <;> simp [boxSign] <;> ring

theorem box_farthest (x : Nat → ℝ) (ρ : ℝ) : farthestSq x (initPoly x ρ) 8 = 3 * ρ ^ 2 := by
  have hpos : 0 ≤ 3 * ρ ^ 2 := by positivity
  have key : ∀ m, m ≤ 8 → farthestSq x (initPoly x ρ) m = if m = 0 then 0 else 3 * ρ ^ 2 := by
    intro m
    induction m with
    | zero => intro _; rfl
    | succ m ih =>
      intro hm
      unfold farthestSq
      obtain ⟨v, hv⟩ := Option.ne_none_iff_exists'.1 (initPoly_live (x := x) (r := ρ) (c := m) |>.2 (by omega))
      rw [hv]
      simp only
      rw [box_distSq x ρ (by omega) hv, ih (by omega)]
      by_cases h0 : m = 0
      · subst h0
        simp only [if_true, Nat.zero_add, one_ne_zero, if_false]
        split_ifs with g
        · rfl
        · linarith
      · simp [h0]
  rw [key 8 (le_refl _)]; simp

/-- The query finds the seed itself. -/
theorem query_self {T : MTree} (hT : CellTree T) {seed : Nat} (hs : seed < T.P.num) {ρ : ℝ} (hρ : 0 < ρ) :
    ∃ loc, sphereQuery Rounding.exact T.P T.ln (fun _ => true) (inSphereTest ρ) (T.P.pts seed) ρ = some loc ∧ seed ∈ loc ∧
      ∀ q ∈ loc, q < T.P.num ∧ euclid 3 (T.P.pts q) (T.P.pts seed) ^ 2 < (1 + 2e-6) * ρ ^ 2 := by
  obtain ⟨loc, e, -, h2, h3⟩ := C08_in_sphere_sound_complete T.P T.ln hT.tree (fun _ => true) (T.P.pts seed) ρ hρ.le
  rw [hT.dim] at h2 h3
  refine ⟨loc, e, h3 seed hs rfl (by rw [euclid_self]; exact hρ), fun q hq => ⟨(h2 q hq).1, ?_⟩⟩
  have := (h2 q hq).2.2
  rwa [← distSq3_eq, distSq3_sq, euclid_comm] at this

/-- **C52** does not hold: when all seeds are at one point, in particular when there is only one, the construction of the cell never ends.  (The cell is the whole space; the box around it grows with the radius of
the search.) -/
theorem C52_single_seed_false (T : MTree) (hT : CellTree T) (ghost : Nat → Bool) (seed : Nat) (hs : seed < T.P.num) (hone : ∀ z, z < T.P.num → euclid 3 (T.P.pts z) (T.P.pts seed) = 0) (fuel' fuel : Nat) :
    ∀ r : ℝ, 1e-10 ≤ r → getCell T ghost seed fuel' fuel r = some none := by
  induction fuel with
  | zero => intro r _; rfl
  | succ f ih =>
    intro r hr
    have hr0 : (0 : ℝ) < r := lt_of_lt_of_le (by norm_num) hr
    obtain ⟨loc, e, hmem, hq⟩ := query_self hT hs (ρ := r * 2) (by linarith)
    unfold getCell
    rw [e]
    cases loc with
    | nil => simp at hmem
    | cons q qs =>
      simp only
      have idle := bestSeed_coincident (x := T.P.pts seed) (loc := (q :: qs).map T.P.pts) fun y hy => by
        obtain ⟨i, hi, rfl⟩ := List.mem_map.1 hy
        exact hone i (hq i hi).1
      rcases (cellLoop_idle idle fuel' 0 (initPoly (T.P.pts seed) (10 * (r * 2)))).1 with g | g
      · rw [g]
      · rw [g]
        simp only
        rw [if_neg, ih (r * 2) (by linarith)]
        rw [show (initPoly (T.P.pts seed) (10 * (r * 2))).num = 8 from rfl, box_farthest, not_lt]
        have h1 : 20 * r ≤ Real.sqrt (3 * (10 * (r * 2)) ^ 2) := by
          apply Real.le_sqrt_of_sq_le
          nlinarith
        have : (1e-10 : ℝ) > 0 := by norm_num
        linarith

/-- **C52** does not hold: from the radius 0 (a sizing of 0) the construction never ends, whatever the seeds. -/
theorem C52_zero_radius_false (T : MTree) (hT : CellTree T) (ghost : Nat → Bool) (seed fuel' fuel : Nat) : getCell T ghost seed fuel' fuel 0 = some none := by
  induction fuel with
  | zero => rfl
  | succ f ih =>
    obtain ⟨loc, e, -, h2, -⟩ := C08_in_sphere_sound_complete T.P T.ln hT.tree (fun _ => true) (T.P.pts seed) 0 (le_refl _)
    cases loc with
    | nil => unfold getCell; simp only [zero_mul]; rw [e]; exact ih
    | cons q qs =>
      have := (h2 q List.mem_cons_self).2.2
      have h0 : 0 ≤ euclidSq T.P.dim (T.P.pts seed) (T.P.pts q) := Finset.sum_nonneg fun _ _ => sq_nonneg _
      norm_num at this
      linarith

/-- **C52**: with a radius of `1e-12` and no other seed within `1e-11`, the box itself passes for the cell, and the numbers of its walls are used as indices far outside the array of neighbours. -/
theorem C52_tiny_radius_undefined (T : MTree) (hT : CellTree T) (ghost : Nat → Bool) (seed : Nat) (hs : seed < T.P.num)
    (hfar : ∀ z, z < T.P.num → euclid 3 (T.P.pts z) (T.P.pts seed) = 0 ∨ 1e-11 ≤ euclid 3 (T.P.pts z) (T.P.pts seed)) (fuel' fuel : Nat) (hf : 9 ≤ fuel') :
    getCell T ghost seed fuel' (fuel + 1) 1e-12 = none := by
  obtain ⟨loc, e, hmem, hq⟩ := query_self hT hs (ρ := 1e-12 * 2) (by norm_num)
  unfold getCell
  rw [e]
  cases loc with
  | nil => simp at hmem
  | cons q qs =>
    simp only
    have idle := bestSeed_coincident (x := T.P.pts seed) (loc := (q :: qs).map T.P.pts) fun y hy => by
      obtain ⟨i, hi, rfl⟩ := List.mem_map.1 hy
      refine (hfar i (hq i hi).1).resolve_right fun g => ?_
      have := (hq i hi).2
      have h2 : (1e-11 : ℝ) ^ 2 ≤ euclid 3 (T.P.pts i) (T.P.pts seed) ^ 2 := pow_le_pow_left₀ (by norm_num) g 2
      norm_num at this h2
      linarith
    rw [(cellLoop_idle idle fuel' 0 (initPoly (T.P.pts seed) (10 * (1e-12 * 2)))).2 (by rw [show (initPoly (T.P.pts seed) (10 * (1e-12 * 2))).num = 8 from rfl]; omega)]
    simp only
    rw [show (initPoly (T.P.pts seed) (10 * (1e-12 * 2))).num = 8 from rfl, box_farthest, if_pos]
    · have hw : ∀ v, resultCorner ghost T.P.pts (T.P.pts seed) (q :: qs) (initPoly (T.P.pts seed) (10 * (1e-12 * 2))) 0 v = none := fun v => by
        unfold resultCorner
        simp [triple?, wallSeed, initPoly, boxWall]
      obtain ⟨v, hv⟩ := Option.ne_none_iff_exists'.1 (initPoly_live (x := T.P.pts seed) (r := 10 * (1e-12 * 2)) (c := 0) |>.2 (by omega))
      unfold resultCorners
      rw [hv]
      simp only [hw]
      rfl
    · have : Real.sqrt (3 * (10 * (1e-12 * 2)) ^ 2) ≤ 4e-11 := by
        rw [Real.sqrt_le_iff]
        norm_num
      have h2 : (2 : ℝ) * 4e-11 < 1e-12 * 2 + 1e-10 := by norm_num
      linarith

/-- All walls of a polytope have a property. -/
def Poly.Walls (P : Poly) (W : Wall → Prop) : Prop := ∀ c i w, P.wall c i = some w → W w

theorem Poly.Walls.setNbr {P : Poly} {W : Wall → Prop} (h : P.Walls W) (c i : Nat) (v : Option Nat) : (P.setNbr c i v).Walls W := h

theorem Poly.Walls.delete {P : Poly} {W : Wall → Prop} (h : P.Walls W) (c : Nat) : (P.delete c).Walls W := by
  intro a i w hw
  by_cases hac : a = c
  · simp [Poly.delete, upd, hac] at hw
  · exact h a i w (by simpa [Poly.delete, upd, hac] using hw)

theorem Poly.Walls.redirect {P : Poly} {W : Wall → Prop} (h : P.Walls W) (d c k : Nat) : (P.redirect d c k).Walls W := by
  unfold Poly.redirect
  split
  · exact h
  · exact h

theorem Poly.Walls.cutEdge {P R : Poly} {W : Wall → Prop} (h : P.Walls W) {t : Nat} (ht : W (Wall.pt t)) {xo n : Nat → ℝ} {c i d : Nat} {xc xd : Nat → ℝ} (e : cutEdge t xo n c i d xc xd P = some R) : R.Walls W := by
  unfold VoroCrust.cutEdge at e
  split at e
  · rename_i wi wm h1 h2
    by_cases h3 : P.num < P.cap
    swap
    · rw [if_neg h3] at e; simp at e
    rw [if_pos h3] at e
    obtain rfl := Option.some.inj e
    refine Poly.Walls.redirect (fun a j w hw => ?_) _ _ _
    simp only [upd] at hw
    by_cases g : a = P.num
    swap
    · rw [if_neg g] at hw; exact h _ _ _ hw
    rw [if_pos g] at hw
    split_ifs at hw with g2 g3
    · exact Option.some.inj hw ▸ h _ _ _ h1
    · exact Option.some.inj hw ▸ h _ _ _ h2
    · exact Option.some.inj hw ▸ ht
  · simp at e

theorem Poly.Walls.trimSlot {rec : Nat → Nat → Poly → Option Poly} {W : Wall → Prop} (hrec : ∀ d c P R, P.Walls W → rec d c P = some R → R.Walls W) {t : Nat} (ht : W (Wall.pt t)) {xo n : Nat → ℝ} {c i : Nat} {P R : Poly}
    (h : P.Walls W) (e : trimSlot rec t xo n c i P = some R) : R.Walls W := by
  unfold VoroCrust.trimSlot at e
  split at e
  · exact Option.some.inj e ▸ h
  · split_ifs at e with h1 h2
    · exact Option.some.inj e ▸ h
    · split at e
      · split_ifs at e with h3
        · exact hrec _ _ _ _ (h.setNbr _ _ _) e
        · exact Poly.Walls.cutEdge (h.setNbr _ _ _) ht e
      · simp at e

theorem Poly.Walls.linkRing {W : Wall → Prop} (lo k i : Nat) {P : Poly} (h : P.Walls W) : (linkRing lo k i P).Walls W := by
  unfold Poly.Walls
  rw [(linkRing_same lo k i P).2.2.2]
  exact h

theorem Poly.Walls.trimVertex {W : Wall → Prop} {t : Nat} (ht : W (Wall.pt t)) {xo n : Nat → ℝ} (f : Nat) : ∀ (c old : Nat) (P R : Poly), P.Walls W → trimVertex t xo n f c old P = some R → R.Walls W := by
  induction f with
  | zero => intro c old P R _ e; simp [VoroCrust.trimVertex] at e
  | succ f ih =>
    intro c old P R h e
    unfold VoroCrust.trimVertex at e
    cases hs : trimSlots (VoroCrust.trimVertex t xo n f) t xo n c (firstSlot P c old) P with
    | none => rw [hs] at e; simp at e
    | some P1 =>
      rw [hs] at e
      simp only [Option.some.injEq] at e
      have h1 : P1.Walls W := by
        unfold trimSlots at hs
        split at hs
        · simp at hs
        · rename_i A hA
          have a := Poly.Walls.trimSlot ih ht h hA
          split at hs
          · simp at hs
          · rename_i B hB
            exact Poly.Walls.trimSlot ih ht (Poly.Walls.trimSlot ih ht a hB) hs
      subst e
      split_ifs
      · exact Poly.Walls.linkRing _ _ _ (h1.delete _)
      · exact h1.delete _

/-- The seed of the best `lambda` is in the list, at the stated place. -/
theorem bestSeed_index {x v : Nat → ℝ} (all : List (Nat → ℝ)) (ys : List (Nat → ℝ)) : ∀ (j : Nat) (b : Option (ℝ × Nat × (Nat → ℝ))), (∀ i, ys[i]? = all[j + i]?) → (∀ l a z, b = some (l, a, z) → all[a]? = some z) →
    ∀ l a z, bestSeed x v ys j b = some (l, a, z) → all[a]? = some z := by
  induction ys with
  | nil => intro j b _ hb l a z h; exact hb l a z h
  | cons y ys ih =>
    intro j b hall hb l a z h
    have hnext : ∀ i, ys[i]? = all[j + 1 + i]? := fun i => by have := hall (i + 1); rw [show j + 1 + i = j + (i + 1) by omega, ← this]; simp
    have hy : all[j]? = some y := by have := hall 0; simpa using this.symm
    have hnew : ∀ l a z, (some (dotDiff x y y / dotDiff x y v, j, y) : Option (ℝ × Nat × (Nat → ℝ))) = some (l, a, z) → all[a]? = some z := fun l a z h => by
      obtain ⟨-, rfl, rfl⟩ := by simpa using h
      exact hy
    unfold bestSeed at h
    split_ifs at h with hd
    · exact ih (j + 1) b hnext hb l a z h
    · cases b with
      | none => exact ih (j + 1) _ hnext hnew l a z h
      | some b =>
        obtain ⟨l0, a0, z0⟩ := b
        simp only at h
        split_ifs at h
        · exact ih (j + 1) _ hnext hnew l a z h
        · exact ih (j + 1) _ hnext hb l a z h

/-- The walls of a cell: walls of the box, and bisectors with seeds at other places. -/
def CellWall (x : Nat → ℝ) (loc : List (Nat → ℝ)) (w : Wall) : Prop := (∃ k, w = Wall.box k) ∨ ∃ j y, w = Wall.pt j ∧ loc[j]? = some y ∧ euclid 3 y x ≠ 0

theorem initPoly_walls (x : Nat → ℝ) (r : ℝ) (loc : List (Nat → ℝ)) : (initPoly x r).Walls (CellWall x loc) := by
  intro c i w h
  unfold initPoly at h
  simp only [Option.map_eq_some_iff] at h
  obtain ⟨k, -, rfl⟩ := h
  exact Or.inl ⟨k, rfl⟩

theorem cellLoop_walls {x : Nat → ℝ} {loc : List (Nat → ℝ)} (f : Nat) : ∀ {c : Nat} {P R : Poly}, P.Walls (CellWall x loc) → cellLoop x loc f c P = some (some R) → R.Walls (CellWall x loc) := by
  induction f with
  | zero => intro c P R _ e; simp [cellLoop] at e
  | succ f ih =>
    intro c P R h e
    unfold cellLoop at e
    split_ifs at e with hc
    · cases hs : cellStep x loc c P with
      | none => rw [hs] at e; simp at e
      | some P1 =>
        rw [hs] at e
        refine ih ?_ e
        unfold cellStep at hs
        cases hp : P.pos c with
        | none => rw [hp] at hs; exact Option.some.inj hs ▸ h
        | some v =>
          rw [hp] at hs
          simp only at hs
          cases hb : bestSeed x v loc 0 none with
          | none => rw [hb] at hs; exact Option.some.inj hs ▸ h
          | some b =>
            obtain ⟨l, j, y⟩ := b
            rw [hb] at hs
            simp only at hs
            split_ifs at hs with h1 h2
            · exact Option.some.inj hs ▸ h
            · exact Option.some.inj hs ▸ h
            · refine Poly.Walls.trimVertex (Or.inr ⟨j, y, rfl, bestSeed_index loc loc 0 none (by simp) (by simp) l j y hb, fun h0 => ?_⟩) _ _ _ _ _ h hs
              have hD := (((bestSeed_spec loc 0 none).2 l j y hb).1.resolve_left (by simp)).2.1
              have hc := dotDiff_cauchy x y v
              rw [dotDiff_self, distSq3_sq, h0] at hc
              have : (0 : ℝ) < dotDiff x y v := lt_of_lt_of_le (by norm_num) hD
              have := pow_pos this 2
              linarith
    · obtain rfl := Option.some.inj (Option.some.inj e)
      exact h

/-- The three entries of a corner of the result. -/
theorem triple?_eq {f : Nat → Option Nat} {g : Nat → Nat} (h : triple? f = some g) : ∀ i, i < 3 → f i = some (g i) := by
  unfold triple? at h
  split at h
  · rename_i a b c h0 h1 h2
    obtain rfl := Option.some.inj h
    intro i hi
    interval_cases i
    · exact h0
    · exact h1
    · exact h2
  · simp at h

theorem triple?_of {f : Nat → Option Nat} (h : ∀ i, i < 3 → f i ≠ none) : ∃ g, triple? f = some g := by
  obtain ⟨a, ha⟩ := Option.ne_none_iff_exists'.1 (h 0 (by omega))
  obtain ⟨b, hb⟩ := Option.ne_none_iff_exists'.1 (h 1 (by omega))
  obtain ⟨c, hc⟩ := Option.ne_none_iff_exists'.1 (h 2 (by omega))
  exact ⟨_, by unfold triple?; rw [ha, hb, hc]⟩

theorem WF.newIndex {P : Poly} (hP : P.WF) {a i : Nat} (hi : i < 3) (ha : P.Live a) :
    ∃ d, P.nbr a i = some d ∧ P.Live d ∧ d ≠ a ∧ slotIndex P a i = some ((List.range d).countP fun a => (P.pos a).isSome) := by
  obtain ⟨d, h1, h2, h3⟩ := hP.out a i hi ha
  refine ⟨d, h1, h2, h3, ?_⟩
  unfold slotIndex
  rw [h1]
  simp only
  rw [if_pos (hP.fin d h2)]
  unfold VoroCrust.newIndex
  rw [if_pos]
  obtain ⟨v, hv⟩ := Option.ne_none_iff_exists'.1 h2
  rw [hv]; rfl

/-- The result is undefined only when a corner that is left has a wall of the box. -/
theorem resultCorners_none {ghost : Nat → Bool} {pts : Nat → Nat → ℝ} {x : Nat → ℝ} {loc : List Nat} {P : Poly} (hP : P.WF) (hw : P.Walls (CellWall x (loc.map pts))) (k : Nat) : ∀ {c : Nat},
    resultCorners ghost pts x loc P k c = none → ∃ a i b, i < 3 ∧ P.Live a ∧ P.wall a i = some (Wall.box b) := by
  induction k with
  | zero => intro c h; simp [resultCorners] at h
  | succ k ih =>
    intro c h
    unfold resultCorners at h
    cases hp : P.pos c with
    | none => rw [hp] at h; exact ih h
    | some v =>
      rw [hp] at h
      simp only at h
      by_contra hno
      push Not at hno
      have hl : P.Live c := by simp [Poly.Live, hp]
      obtain ⟨s, hs⟩ := triple?_of (f := fun i => wallSeed loc (P.wall c i)) fun i hi => by
        obtain ⟨w, hw'⟩ := Option.ne_none_iff_exists'.1 (hP.wall c i hi hl)
        simp only [hw']
        rcases hw c i w hw' with ⟨b, rfl⟩ | ⟨j, y, rfl, hy, -⟩
        · exact absurd hw' (hno c i b hi hl)
        · unfold wallSeed
          simp only
          rw [List.getElem?_map] at hy
          intro hn
          rw [hn] at hy
          simp at hy
      obtain ⟨g, hg⟩ := triple?_of (f := slotIndex P c) fun i hi => by
        obtain ⟨d, -, -, -, h4⟩ := WF.newIndex hP hi hl
        simp only [h4]
        simp
      have hr : resultCorner ghost pts x loc P c v = some ⟨v, g, s, cornerOwner ghost pts v (Real.sqrt (distSq3 v x)) loc none⟩ := by
        unfold resultCorner; rw [hs, hg]
      rw [hr] at h
      cases hl' : resultCorners ghost pts x loc P k (c + 1) with
      | none =>
        obtain ⟨a, i, b, h1, h2, h3⟩ := ih hl'
        exact hno a i b h1 h2 h3
      | some l => rw [hl'] at h; simp at h

/-- **C52** (in part): the construction leaves its arrays only when it accepts a polytope on which a wall of the initial box is left: the recursion of the trimming ends and is defined (C76), and so is everything
else. -/
theorem C52_defined_partial (T : MTree) (hT : CellTree T) (ghost : Nat → Bool) (seed fuel' fuel : Nat) : ∀ (r : ℝ), 0 ≤ r → getCell T ghost seed fuel' fuel r = none →
    ∃ (ρ : ℝ) (loc : List Nat) (P : Poly) (a i b : Nat), sphereQuery Rounding.exact T.P T.ln (fun _ => true) (inSphereTest ρ) (T.P.pts seed) ρ = some loc ∧
      cellLoop (T.P.pts seed) (loc.map T.P.pts) fuel' 0 (initPoly (T.P.pts seed) (10 * ρ)) = some (some P) ∧ (∀ c v, P.pos c = some v → 2 * euclid 3 v (T.P.pts seed) < ρ + 1e-10) ∧
      i < 3 ∧ P.pos a ≠ none ∧ P.wall a i = some (Wall.box b) := by
  induction fuel with
  | zero => intro r _ h; simp [getCell] at h
  | succ f ih =>
    intro r hr h
    unfold getCell at h
    obtain ⟨loc, e, -⟩ := C08_in_sphere_sound_complete T.P T.ln hT.tree (fun _ => true) (T.P.pts seed) (r * 2) (by linarith)
    rw [e] at h
    cases loc with
    | nil => exact ih _ (by linarith) h
    | cons q qs =>
      simp only at h
      rcases cellLoop_spec (x := T.P.pts seed) (loc := (q :: qs).map T.P.pts) fuel' (initPoly_wf _ (10 * (r * 2))) (c := 0) (by simp) with g | ⟨P, e1, e2, -⟩
      · rw [g] at h; simp at h
      · rw [e1] at h
        simp only at h
        split_ifs at h with hrv
        · have hn : resultCorners ghost T.P.pts (T.P.pts seed) (q :: qs) P P.num 0 = none := by simpa using h
          obtain ⟨a, i, b, h1, h2, h3⟩ := resultCorners_none e2 (cellLoop_walls fuel' (initPoly_walls _ _ _) e1) _ hn
          refine ⟨r * 2, q :: qs, P, a, i, b, e, e1, fun c v hv => ?_, h1, h2, h3⟩
          have := farthestSq_le (x := T.P.pts seed) P.num c (e2.fin c (by simp [Poly.Live, hv])) v hv
          have := Real.sqrt_le_sqrt this
          rw [sqrt_distSq3] at this
          linarith
        · exact ih _ (by linarith) h

/-! ## C77 -/

/-- The number of live corners below `a`. -/
def Poly.rank (P : Poly) (a : Nat) : Nat := (List.range a).countP fun a => (P.pos a).isSome

theorem rank_succ (P : Poly) (a : Nat) : P.rank (a + 1) = P.rank a + if (P.pos a).isSome then 1 else 0 := by
  unfold Poly.rank
  rw [List.range_succ, List.countP_append]
  simp [List.countP_singleton]

theorem rank_mono (P : Poly) {a b : Nat} (h : a ≤ b) : P.rank a ≤ P.rank b := by
  induction h with
  | refl => exact le_refl _
  | step _ ih => rw [rank_succ]; omega

theorem rank_lt (P : Poly) {a b : Nat} (h : a < b) (ha : P.Live a) : P.rank a < P.rank b := by
  have h1 := rank_mono P (Nat.succ_le_of_lt h)
  obtain ⟨v, hv⟩ := Option.ne_none_iff_exists'.1 ha
  rw [Nat.succ_eq_add_one, rank_succ, hv] at h1
  simp at h1
  omega

theorem rank_inj (P : Poly) {a b : Nat} (ha : P.Live a) (hb : P.Live b) (h : P.rank a = P.rank b) : a = b := by
  rcases Nat.lt_trichotomy a b with g | g | g
  · have := rank_lt P g ha; omega
  · exact g
  · have := rank_lt P g hb; omega

theorem resultCorners_get {ghost : Nat → Bool} {pts : Nat → Nat → ℝ} {x : Nat → ℝ} {loc : List Nat} {P : Poly} (k : Nat) : ∀ {c : Nat} {l : List CellCorner}, resultCorners ghost pts x loc P k c = some l →
    (∀ i q, l[i]? = some q → ∃ a v, a < c + k ∧ P.pos a = some v ∧ P.rank a = P.rank c + i ∧ resultCorner ghost pts x loc P a v = some q) ∧ P.rank (c + k) = P.rank c + l.length := by
  induction k with
  | zero => intro c l h; simp [resultCorners] at h; subst h; simp
  | succ k ih =>
    intro c l h
    unfold resultCorners at h
    cases hp : P.pos c with
    | none =>
      rw [hp] at h
      obtain ⟨h1, h2⟩ := ih h
      have hr : P.rank (c + 1) = P.rank c := by rw [rank_succ, hp]; simp
      rw [show c + (k + 1) = c + 1 + k by omega, h2, hr]
      refine ⟨fun i q hq => ?_, rfl⟩
      obtain ⟨a, v, g1, g2, g3, g4⟩ := h1 i q hq
      exact ⟨a, v, by omega, g2, by rw [g3, hr], g4⟩
    | some v =>
      rw [hp] at h
      simp only at h
      cases ha : resultCorner ghost pts x loc P c v with
      | none => rw [ha] at h; simp at h
      | some b =>
        cases hl : resultCorners ghost pts x loc P k (c + 1) with
        | none => rw [ha, hl] at h; simp at h
        | some l' =>
          rw [ha, hl] at h
          simp only [Option.some.injEq] at h
          subst h
          obtain ⟨h1, h2⟩ := ih hl
          have hr : P.rank (c + 1) = P.rank c + 1 := by rw [rank_succ, hp]; simp
          rw [show c + (k + 1) = c + 1 + k by omega, h2, hr, List.length_cons]
          refine ⟨fun i q hq => ?_, by omega⟩
          cases i with
          | zero =>
            simp only [List.getElem?_cons_zero, Option.some.injEq] at hq
            subst hq
            exact ⟨c, v, by omega, hp, rfl, ha⟩
          | succ i =>
            rw [List.getElem?_cons_succ] at hq
            obtain ⟨a, w, g1, g2, g3, g4⟩ := h1 i q hq
            exact ⟨a, w, by omega, g2, by rw [g3, hr]; omega, g4⟩

theorem cornerOwner_spec {ghost : Nat → Bool} {pts : Nat → Nat → ℝ} {v : Nat → ℝ} {rv : ℝ} (qs : List Nat) : ∀ (o : Option Nat),
    (∀ a, cornerOwner ghost pts v rv qs o = some a → o = some a ∨ (a ∈ qs ∧ ghost a = false ∧ |rv - Real.sqrt (distSq3 v (pts a))| < 1e-10)) ∧
    (∀ b, o = some b ∨ (b ∈ qs ∧ ghost b = false ∧ |rv - Real.sqrt (distSq3 v (pts b))| < 1e-10) → ∃ a, cornerOwner ghost pts v rv qs o = some a ∧ a ≤ b) := by
  induction qs with
  | nil => intro o; exact ⟨fun a h => Or.inl h, fun b h => ⟨b, h.resolve_right (by simp), le_refl _⟩⟩
  | cons q qs ih =>
    intro o
    unfold cornerOwner
    split_ifs with h
    · obtain ⟨h1, h2⟩ := ih (some q)
      refine ⟨fun a ha => Or.inr ?_, fun b hb => ?_⟩
      · rcases h1 a ha with g | g
        · obtain rfl := Option.some.inj g
          exact ⟨List.mem_cons_self, h.1, h.2.1⟩
        · exact ⟨List.mem_cons_of_mem _ g.1, g.2⟩
      · obtain ⟨a, e, hle⟩ := h2 q (Or.inl rfl)
        rcases hb with hb | ⟨hb, hb'⟩
        · exact ⟨a, e, hle.trans (h.2.2 b hb).le⟩
        · rcases List.mem_cons.1 hb with rfl | hb
          · exact ⟨a, e, hle⟩
          · exact h2 b (Or.inr ⟨hb, hb'⟩)
    · obtain ⟨h1, h2⟩ := ih o
      refine ⟨fun a ha => (h1 a ha).imp_right fun g => ⟨List.mem_cons_of_mem _ g.1, g.2⟩, fun b hb => ?_⟩
      rcases hb with hb | ⟨hb, hb'⟩
      · exact h2 b (Or.inl hb)
      · rcases List.mem_cons.1 hb with rfl | hb
        · rw [not_and, not_and] at h
          have := h hb'.1 hb'.2
          push Not at this
          obtain ⟨c, hc, hle⟩ := this
          obtain ⟨a, e, hac⟩ := h2 c (Or.inl hc)
          exact ⟨a, e, hac.trans hle⟩
        · exact h2 b (Or.inr ⟨hb, hb'⟩)

/-- The number of slots of a corner that lead to corner `m`. -/
def CellCorner.slotsTo (q : CellCorner) (m : Nat) : Nat := (if q.nbr 0 = m then 1 else 0) + (if q.nbr 1 = m then 1 else 0) + (if q.nbr 2 = m then 1 else 0)

/-- **C77**.  A returned cell is a graph on its corners: three neighbours each, none its own, neighbourhood mutual.  Its walls are bisectors with seeds at other places.  Every corner of a cell that is not a ghost has
an owner: a seed that is not a ghost, as far from the corner as the seed of the cell, not behind it in the numbering, and the first of all such seeds that lie within the searched distance. -/
theorem C77_cell_graph (T : MTree) (hT : CellTree T) (ghost : Nat → Bool) (seed fuel' fuel : Nat) (hs : seed < T.P.num) (r : ℝ) (hr : 0 ≤ r) (l : List CellCorner)
    (h : getCell T ghost seed fuel' fuel r = some (some l)) :
    (∀ (i : Nat) (q : CellCorner) (j : Nat), l[i]? = some q → j < 3 → q.nbr j < l.length ∧ q.nbr j ≠ i ∧ q.seeds j < T.P.num ∧ euclid 3 (T.P.pts (q.seeds j)) (T.P.pts seed) ≠ 0) ∧
    (∀ (i m : Nat) (q q' : CellCorner), l[i]? = some q → l[m]? = some q' → q.slotsTo m = q'.slotsTo i) ∧
    (ghost seed = false → ∀ q ∈ l, ∃ o, q.owner = some o ∧ o ≤ seed ∧ ghost o = false ∧ |euclid 3 q.x (T.P.pts seed) - euclid 3 q.x (T.P.pts o)| < 1e-10 ∧
      ∀ y, y < T.P.num → ghost y = false → |euclid 3 q.x (T.P.pts seed) - euclid 3 q.x (T.P.pts y)| < 1e-10 → euclid 3 (T.P.pts seed) (T.P.pts y) ≤ 2 * euclid 3 q.x (T.P.pts seed) - 1e-10 → o ≤ y) := by
  obtain ⟨ρ, q0, qs, P, hρ, hq, hc, hrv, hl⟩ := getCell_form fuel hr h
  obtain ⟨loc, e, -, h2, h3⟩ := C08_in_sphere_sound_complete T.P T.ln hT.tree (fun _ => true) (T.P.pts seed) ρ hρ
  obtain rfl := Option.some.inj (e.symm.trans hq)
  rw [hT.dim] at h3
  rcases cellLoop_spec (x := T.P.pts seed) (loc := (q0 :: qs).map T.P.pts) fuel' (initPoly_wf _ _) (c := 0) (by simp) with g | ⟨R, e1, e2, -⟩
  · rw [hc] at g; simp at g
  rw [hc] at e1
  obtain rfl := Option.some.inj (Option.some.inj e1)
  have hw := cellLoop_walls fuel' (initPoly_walls _ _ _) hc
  obtain ⟨k1, k2⟩ := resultCorners_get _ hl
  have hr0 : P.rank 0 = 0 := rfl
  rw [hr0, Nat.zero_add, Nat.zero_add] at k2
  simp only [hr0, Nat.zero_add] at k1
  have nb : ∀ {a v q j}, P.pos a = some v → resultCorner ghost T.P.pts (T.P.pts seed) (q0 :: qs) P a v = some q → j < 3 → ∃ d, P.nbr a j = some d ∧ P.Live d ∧ d ≠ a ∧ q.nbr j = P.rank d := by
    intro a v q j hv hres hj
    obtain ⟨d, d1, d2, d3, d4⟩ := WF.newIndex e2 hj (a := a) (by simp [Poly.Live, hv])
    have := triple?_eq (resultCorner_x hres).2.2.2 j hj
    simp only [d4, Option.some.injEq] at this
    exact ⟨d, d1, d2, d3, this.symm⟩
  refine ⟨fun i q j hi hj => ?_, fun i m q q' hi hm => ?_, fun hg q hql => ?_⟩
  · obtain ⟨a, v, -, hv, hra, hres⟩ := k1 i q hi
    have hla : P.Live a := by simp [Poly.Live, hv]
    obtain ⟨d, d1, d2, d3, d4⟩ := nb hv hres hj
    refine ⟨by rw [d4, ← k2]; exact rank_lt P (e2.fin d d2) d2, fun hh => d3 (rank_inj P d2 hla (by rw [← d4, hh, hra])), ?_⟩
    have := triple?_eq (resultCorner_x hres).2.2.1 j hj
    unfold wallSeed at this
    split at this
    · rename_i jj hjj
      have hmem := List.mem_of_getElem? this
      refine ⟨(h2 _ hmem).1, ?_⟩
      rcases hw _ _ _ hjj with ⟨b, hb⟩ | ⟨j', y, hb, hy, hne⟩
      · simp at hb
      · obtain rfl := by simpa using hb
        rw [List.getElem?_map, this] at hy
        obtain rfl := by simpa using hy
        exact hne
    · simp at this
  · obtain ⟨a, v, -, hv, hra, hres⟩ := k1 i q hi
    obtain ⟨b, w, -, hw', hrb, hres'⟩ := k1 m q' hm
    have hla : P.Live a := by simp [Poly.Live, hv]
    have hlb : P.Live b := by simp [Poly.Live, hw']
    have key : ∀ {a b v q m}, P.pos a = some v → P.Live b → resultCorner ghost T.P.pts (T.P.pts seed) (q0 :: qs) P a v = some q → P.rank b = m → q.slotsTo m = P.cnt a b := by
      intro a b v q m hv hb hres hm
      have hj : ∀ j, j < 3 → (q.nbr j = m ↔ P.nbr a j = some b) := fun j hj => by
        obtain ⟨d, d1, d2, d3, d4⟩ := nb hv hres hj
        rw [d4, d1, ← hm]
        exact ⟨fun g => by rw [rank_inj P d2 hb g], fun g => by rw [Option.some.inj g]⟩
      unfold CellCorner.slotsTo Poly.cnt
      simp only [hj 0 (by omega), hj 1 (by omega), hj 2 (by omega)]
    rw [key hv hlb hres hrb, key hw' hla hres' hra]
    exact e2.sym a b hla hlb
  · obtain ⟨a, v, -, ha, hv, hres⟩ := resultCorners_mem _ hl q hql
    obtain ⟨x1, x2, -, -⟩ := resultCorner_x hres
    rw [x1, x2]
    have hρ0 : 0 < ρ := by
      have := (h2 q0 List.mem_cons_self).2.2
      have h0 : 0 ≤ euclidSq T.P.dim (T.P.pts seed) (T.P.pts q0) := Finset.sum_nonneg fun _ _ => sq_nonneg _
      rcases hρ.lt_or_eq with g | g
      · exact g
      · rw [← g] at this; norm_num at this; linarith
    have hself : seed ∈ q0 :: qs := h3 seed hs rfl (by rw [euclid_self]; exact hρ0)
    obtain ⟨o1, o2⟩ := cornerOwner_spec (ghost := ghost) (pts := T.P.pts) (v := v) (rv := Real.sqrt (distSq3 v (T.P.pts seed))) (q0 :: qs) none
    obtain ⟨o, eo, hle⟩ := o2 seed (Or.inr ⟨hself, hg, by rw [sub_self, abs_zero]; norm_num⟩)
    obtain ⟨-, g2, g3⟩ := (o1 o eo).resolve_left (by simp)
    rw [sqrt_distSq3, sqrt_distSq3] at g3
    refine ⟨o, eo, hle, g2, g3, fun y hy hgy hd hnear => ?_⟩
    have hfar := farthestSq_le (x := T.P.pts seed) P.num a (by omega) v hv
    have h5 : euclid 3 v (T.P.pts seed) ≤ Real.sqrt (farthestSq (T.P.pts seed) P P.num) := by
      rw [← sqrt_distSq3]; exact Real.sqrt_le_sqrt hfar
    obtain ⟨o', eo', hle'⟩ := o2 y (Or.inr ⟨h3 y hy rfl (by linarith), hgy, by rw [sqrt_distSq3, sqrt_distSq3]; exact hd⟩)
    obtain rfl := Option.some.inj (eo.symm.trans eo')
    exact hle'

end VoroCrust
