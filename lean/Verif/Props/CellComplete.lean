import Verif.Props.CellExact

/-!
# The Voronoi cell of a seed in general position

C51 and C52 for seeds in general position: the cell that is returned is exactly the Voronoi cell, and a bounded cell is found.
-/

namespace VoroCrust

open Classical

variable {x : Nat → ℝ} {B : ℝ} {loc : List (Nat → ℝ)}

/-- The bisector as the comparison of two distances. -/
theorem bisector_le {x y : Nat → ℝ} (hy : euclid 3 y x ≠ 0) (v : Nat → ℝ) : side (midPoint x y) (bisectorNormal x y) v ≤ 0 ↔ euclid 3 v x ≤ euclid 3 v y := by
  have hpos : 0 < euclid 3 y x := lt_of_le_of_ne (euclid_nonneg 3 y x) (Ne.symm hy)
  rw [side_bisector, dotDiff_self, sqrt_distSq3, ← not_lt, ← not_lt, not_iff_not]
  rw [div_pos_iff_of_pos_right hpos, ← pow_lt_pow_iff_left₀ (euclid_nonneg 3 v y) (euclid_nonneg 3 v x) (n := 2) (by norm_num), ← distSq3_sq, ← distSq3_sq]
  have hid : distSq3 v y = distSq3 v x - 2 * dotDiff x y v + distSq3 y x := by unfold distSq3 dotDiff; ring
  rw [hid]
  constructor <;> intro h <;> linarith

/-- A corner is on a bisector, inside it or well beyond. -/
theorem CellState.sides {P : Poly} (h : CellState x B loc P) (hg : LocGeneral x B loc) {j : Nat} {y : Nat → ℝ} (hj : loc[j]? = some y) (hy : euclid 3 y x ≠ 0) {c : Nat} {v : Nat → ℝ} (hv : P.pos c = some v) :
    side (midPoint x y) (bisectorNormal x y) v ≤ 0 ∨ side (midPoint x y) (bisectorNormal x y) v > 1e-10 := by
  by_cases hno : ∀ i, i < 3 → P.wall c i ≠ some (Wall.pt j)
  · exact (h.clear hg hj hy hv hno).imp_left le_of_lt
  · push Not at hno
    obtain ⟨i, hi, e⟩ := hno
    have := h.shape.on c v i hi hv
    rw [e] at this
    unfold hgt at this
    rw [cellPl_pt hj] at this
    exact Or.inl this.le

/-- The corners that the loop leaves are in the cell of all examined seeds. -/
theorem CellState.settled {P : Poly} (h : CellState x B loc P) (hg : LocGeneral x B loc) (hsep : ∀ y ∈ loc, euclid 3 y x = 0 ∨ 2e-5 ≤ euclid 3 y x) {c : Nat} {v : Nat → ℝ} (hv : P.pos c = some v)
    (hset : CornerSettled x loc v) {y : Nat → ℝ} (hy : y ∈ loc) (hyx : euclid 3 y x ≠ 0) : side (midPoint x y) (bisectorNormal x y) v ≤ 0 := by
  have hpos : 0 < euclid 3 y x := lt_of_le_of_ne (euclid_nonneg 3 y x) (Ne.symm hyx)
  have hbig := (hsep y hy).resolve_left hyx
  have hsq : dotDiff x y y = euclid 3 y x ^ 2 := by rw [dotDiff_self, distSq3_sq]
  have hroot : Real.sqrt (dotDiff x y y) = euclid 3 y x := by rw [dotDiff_self, sqrt_distSq3]
  rw [side_bisector, hroot, hsq]
  have goal : dotDiff x y v ≤ euclid 3 y x ^ 2 / 2 → (dotDiff x y v - euclid 3 y x ^ 2 / 2) / euclid 3 y x ≤ 0 := fun q => div_nonpos_of_nonpos_of_nonneg (by linarith) hpos.le
  apply goal
  by_cases hD : dotDiff x y v < 1e-10
  · nlinarith
  have hDpos : 0 < dotDiff x y v := lt_of_lt_of_le (by norm_num) (not_lt.1 hD)
  obtain ⟨b1, b2⟩ := bestSeed_spec (x := x) (v := v) loc 0 none
  cases hb : bestSeed x v loc 0 none with
  | none => exact absurd ((b1.1 hb).2 y hy) hD
  | some b =>
    obtain ⟨l, j, z⟩ := b
    obtain ⟨g1, -, g3⟩ := b2 l j z hb
    have hl := (g3 y hy).resolve_left hD
    have two : 2 ≤ l → dotDiff x y v ≤ euclid 3 y x ^ 2 / 2 := fun q => by
      have := q.trans hl
      rw [le_div_iff₀ hDpos, hsq] at this
      linarith
    by_cases hl2 : l > 2
    · exact two hl2.le
    · have hs := (hset l j z hb).resolve_left hl2
      obtain ⟨hz, hDz, rfl⟩ := g1.resolve_left (by simp)
      have hDz0 : 0 < dotDiff x z v := lt_of_lt_of_le (by norm_num) hDz
      have hj := bestSeed_index loc loc 0 none (by simp) (by simp) _ j z hb
      have hzx : euclid 3 z x ≠ 0 := fun h0 => by
        have hc := dotDiff_cauchy x z v
        rw [dotDiff_self, distSq3_sq, h0] at hc
        have := pow_pos hDz0 2
        linarith
      have hz0 : 0 < euclid 3 z x := lt_of_le_of_ne (euclid_nonneg 3 z x) (Ne.symm hzx)
      have hle := (h.sides hg hj hzx hv).resolve_right (not_lt.2 hs)
      rw [side_bisector, dotDiff_self, sqrt_distSq3, div_nonpos_iff] at hle
      refine two ?_
      rw [le_div_iff₀ hDz0, dotDiff_self]
      rcases hle with q | q <;> linarith [q.1, q.2]

/-! ## General position of the seeds -/

/-- The planes around `x`: the six sides of the box of half width `B` and the bisectors with the seeds. -/
noncomputable def seedPl (x : Nat → ℝ) (B : ℝ) (pts : Nat → Nat → ℝ) : Wall → (Nat → ℝ) × (Nat → ℝ)
  | Wall.box k => boxPlane x B k
  | Wall.pt z => bisector x (pts z)

/-- A side of the box or the bisector with a seed at another place. -/
def SeedWall (pts : Nat → Nat → ℝ) (num : Nat) (x : Nat → ℝ) (w : Wall) : Prop := (∃ k, k < 6 ∧ w = Wall.box k) ∨ ∃ z, w = Wall.pt z ∧ z < num ∧ euclid 3 (pts z) x ≠ 0

/-- **General position.**  No point that is on three of the planes is on a further bisector or up to `1e-10` beyond it. -/
def GeneralPos (pts : Nat → Nat → ℝ) (num : Nat) (x : Nat → ℝ) (B : ℝ) : Prop :=
  ∀ a b c z v, SeedWall pts num x a → SeedWall pts num x b → SeedWall pts num x c → a ≠ b → a ≠ c → b ≠ c → z < num → euclid 3 (pts z) x ≠ 0 → Wall.pt z ≠ a → Wall.pt z ≠ b → Wall.pt z ≠ c →
    side (seedPl x B pts a).1 (seedPl x B pts a).2 v = 0 → side (seedPl x B pts b).1 (seedPl x B pts b).2 v = 0 → side (seedPl x B pts c).1 (seedPl x B pts c).2 v = 0 →
    side (midPoint x (pts z)) (bisectorNormal x (pts z)) v < 0 ∨ side (midPoint x (pts z)) (bisectorNormal x (pts z)) v > 1e-10

/-- The wall of a list of seeds as a wall of all. -/
def toSeed (loc : List Nat) : Wall → Wall
  | Wall.box k => Wall.box k
  | Wall.pt j => Wall.pt (loc.getD j 0)

theorem toSeed_wall {pts : Nat → Nat → ℝ} {num : Nat} {loc : List Nat} (hloc : ∀ q ∈ loc, q < num) {w : Wall} (h : LocWall x (loc.map pts) w) :
    SeedWall pts num x (toSeed loc w) ∧ ∀ B v, side (seedPl x B pts (toSeed loc w)).1 (seedPl x B pts (toSeed loc w)).2 v = hgt (cellPl x B (loc.map pts)) (some w) v := by
  rcases h with ⟨k, hk, rfl⟩ | ⟨j, y, rfl, e, hy⟩
  · exact ⟨Or.inl ⟨k, hk, rfl⟩, fun _ _ => rfl⟩
  · have hgt' : ∀ B v, hgt (cellPl x B (loc.map pts)) (some (Wall.pt j)) v = side (midPoint x y) (bisectorNormal x y) v := fun B v => by unfold hgt; rw [cellPl_pt e]
    rw [List.getElem?_map, Option.map_eq_some_iff] at e
    obtain ⟨q, hq, rfl⟩ := e
    have hqq : toSeed loc (Wall.pt j) = Wall.pt q := by simp only [toSeed, List.getD_eq_getElem?_getD, hq, Option.getD_some]
    rw [hqq]
    exact ⟨Or.inr ⟨q, rfl, hloc q (List.mem_of_getElem? hq), hy⟩, fun B v => (hgt' B v).symm⟩

theorem toSeed_inj {pts : Nat → Nat → ℝ} {loc : List Nat} (hn : loc.Nodup) {a b : Wall} (ha : LocWall x (loc.map pts) a) (hb : LocWall x (loc.map pts) b) (e : toSeed loc a = toSeed loc b) : a = b := by
  rcases ha with ⟨k, hk, rfl⟩ | ⟨j, y, rfl, e1, -⟩ <;> rcases hb with ⟨k', hk', rfl⟩ | ⟨j', y', rfl, e2, -⟩
  · exact e
  · simp [toSeed] at e
  · simp [toSeed] at e
  · have l1 := (List.getElem?_eq_some_iff.1 e1).1
    have l2 := (List.getElem?_eq_some_iff.1 e2).1
    rw [List.length_map] at l1 l2
    simp only [toSeed, Wall.pt.injEq, List.getD_eq_getElem?_getD, List.getElem?_eq_getElem l1, List.getElem?_eq_getElem l2, Option.getD_some] at e
    have e' : j = j' := (List.Nodup.getElem_inj_iff hn).1 e
    rw [e']

/-- Seeds in general position are so for every list of them. -/
theorem GeneralPos.toLoc {pts : Nat → Nat → ℝ} {num : Nat} {loc : List Nat} (h : GeneralPos pts num x B) (hn : loc.Nodup) (hloc : ∀ q ∈ loc, q < num) : LocGeneral x B (loc.map pts) := by
  intro a b c j y v ha hb hc hab hac hbc hj hy ja jb jc oa ob oc
  have hw : LocWall x (loc.map pts) (Wall.pt j) := Or.inr ⟨j, y, rfl, hj, hy⟩
  have hj' := hj
  rw [List.getElem?_map, Option.map_eq_some_iff] at hj'
  obtain ⟨q, hq, rfl⟩ := hj'
  have hqq : toSeed loc (Wall.pt j) = Wall.pt q := by simp only [toSeed, List.getD_eq_getElem?_getD, hq, Option.getD_some]
  refine h _ _ _ q v (toSeed_wall hloc ha).1 (toSeed_wall hloc hb).1 (toSeed_wall hloc hc).1 (fun e => hab (toSeed_inj hn ha hb e)) (fun e => hac (toSeed_inj hn ha hc e)) (fun e => hbc (toSeed_inj hn hb hc e))
    (hloc q (List.mem_of_getElem? hq)) hy (fun e => ja (toSeed_inj hn hw ha (hqq.trans e))) (fun e => jb (toSeed_inj hn hw hb (hqq.trans e))) (fun e => jc (toSeed_inj hn hw hc (hqq.trans e)))
    (((toSeed_wall hloc ha).2 B v).trans oa) (((toSeed_wall hloc hb).2 B v).trans ob) (((toSeed_wall hloc hc).2 B v).trans oc)

/-! ## The rounds -/

/-- The round in which a cell is returned. -/
theorem getCell_round {T : MTree} {ghost : Nat → Bool} {seed fuel' : Nat} (f : Nat) : ∀ {r : ℝ} {l : List CellCorner}, getCell T ghost seed fuel' f r = some (some l) →
    ∃ (m : Nat) (q : Nat) (qs : List Nat) (P : Poly), m < f ∧ sphereQuery Rounding.exact T.P T.ln (fun _ => true) (inSphereTest (r * 2 ^ (m + 1))) (T.P.pts seed) (r * 2 ^ (m + 1)) = some (q :: qs) ∧
      cellLoop (T.P.pts seed) ((q :: qs).map T.P.pts) fuel' 0 (initPoly (T.P.pts seed) (10 * (r * 2 ^ (m + 1)))) = some (some P) ∧
      2 * Real.sqrt (farthestSq (T.P.pts seed) P P.num) < r * 2 ^ (m + 1) + 1e-10 ∧ resultCorners ghost T.P.pts (T.P.pts seed) (q :: qs) P P.num 0 = some l := by
  induction f with
  | zero => intro r l h; simp [getCell] at h
  | succ f ih =>
    intro r l h
    have next : getCell T ghost seed fuel' f (r * 2) = some (some l) → ∃ (m : Nat) (q : Nat) (qs : List Nat) (P : Poly), m < f + 1 ∧ sphereQuery Rounding.exact T.P T.ln (fun _ => true) (inSphereTest (r * 2 ^ (m + 1))) (T.P.pts seed) (r * 2 ^ (m + 1)) = some (q :: qs) ∧
      cellLoop (T.P.pts seed) ((q :: qs).map T.P.pts) fuel' 0 (initPoly (T.P.pts seed) (10 * (r * 2 ^ (m + 1)))) = some (some P) ∧
      2 * Real.sqrt (farthestSq (T.P.pts seed) P P.num) < r * 2 ^ (m + 1) + 1e-10 ∧ resultCorners ghost T.P.pts (T.P.pts seed) (q :: qs) P P.num 0 = some l := fun h => by
      obtain ⟨m, q, qs, P, h0, h1⟩ := ih h
      refine ⟨m + 1, q, qs, P, by omega, ?_⟩
      rwa [show r * 2 * 2 ^ (m + 1) = r * 2 ^ (m + 1 + 1) by ring] at h1
    unfold getCell at h
    cases hq : sphereQuery Rounding.exact T.P T.ln (fun _ => true) (inSphereTest (r * 2)) (T.P.pts seed) (r * 2) with
    | none => rw [hq] at h; simp at h
    | some q =>
      rw [hq] at h
      cases q with
      | nil => exact next h
      | cons q qs =>
        simp only at h
        cases hc : cellLoop (T.P.pts seed) ((q :: qs).map T.P.pts) fuel' 0 (initPoly (T.P.pts seed) (10 * (r * 2))) with
        | none => rw [hc] at h; simp at h
        | some o =>
          rw [hc] at h
          cases o with
          | none => simp at h
          | some P =>
            simp only at h
            by_cases hrv : 2 * Real.sqrt (farthestSq (T.P.pts seed) P P.num) < r * 2 + 1e-10
            · rw [if_pos hrv] at h
              refine ⟨0, q, qs, P, by omega, ?_⟩
              rw [zero_add, pow_one]
              exact ⟨hq, hc, hrv, by simpa using h⟩
            · rw [if_neg hrv] at h
              exact next h

theorem resultCorners_all {ghost : Nat → Bool} {pts : Nat → Nat → ℝ} {x : Nat → ℝ} {loc : List Nat} {P : Poly} (k : Nat) : ∀ {c : Nat} {l : List CellCorner}, resultCorners ghost pts x loc P k c = some l →
    ∀ a v, c ≤ a → a < c + k → P.pos a = some v → ∃ q ∈ l, resultCorner ghost pts x loc P a v = some q := by
  induction k with
  | zero => intro c l h a v h1 h2; omega
  | succ k ih =>
    intro c l h a v h1 h2 hv
    unfold resultCorners at h
    cases hp : P.pos c with
    | none =>
      rw [hp] at h
      have : a ≠ c := fun e => by rw [e, hp] at hv; simp at hv
      exact ih h a v (by omega) (by omega) hv
    | some w =>
      rw [hp] at h
      simp only at h
      cases ha : resultCorner ghost pts x loc P c w with
      | none => rw [ha] at h; simp at h
      | some b =>
        cases hl : resultCorners ghost pts x loc P k (c + 1) with
        | none => rw [ha, hl] at h; simp at h
        | some l' =>
          rw [ha, hl] at h
          simp only [Option.some.injEq] at h
          subst h
          by_cases e : a = c
          · subst e
            obtain rfl := Option.some.inj (hp.symm.trans hv)
            exact ⟨b, by simp, ha⟩
          · obtain ⟨q, h3, h4⟩ := ih hl a v (by omega) (by omega) hv
            exact ⟨q, List.mem_cons_of_mem _ h3, h4⟩

/-- A seed that was not examined is well inside the bisector. -/
theorem far_side {x y v : Nat → ℝ} {ρ : ℝ} (hy : euclid 3 y x ≠ 0) (hfar : ρ ≤ euclid 3 y x) (hv : 2 * euclid 3 v x < ρ + 1e-10) : side (midPoint x y) (bisectorNormal x y) v < 1e-10 := by
  have hpos : 0 < euclid 3 y x := lt_of_le_of_ne (euclid_nonneg 3 y x) (Ne.symm hy)
  have hc := dotDiff_cauchy x y v
  rw [dotDiff_self, dotDiff_self, distSq3_sq, distSq3_sq, ← mul_pow] at hc
  have hd : dotDiff x y v ≤ euclid 3 y x * euclid 3 v x := by
    have := abs_le_of_sq_le_sq hc (mul_nonneg hpos.le (euclid_nonneg 3 v x))
    exact (le_abs_self _).trans this
  rw [side_bisector, dotDiff_self, sqrt_distSq3, distSq3_sq, div_lt_iff₀ hpos]
  have h1 : euclid 3 y x * (euclid 3 v x - euclid 3 y x / 2) ≤ euclid 3 y x * 0.5e-10 := mul_le_mul_of_nonneg_left (by linarith) hpos.le
  nlinarith

/-- **C51** (in part): for seeds in general position and not nearer than 2e-5 to the seed of the cell, the cell that is returned is exactly the Voronoi cell: its corners span the points that are not nearer to any
other seed, examined or not.  Missing: seeds not in general position (there the corners are right up to the tolerances, `C51_corners_partial`). -/
theorem C51_generic_partial (T : MTree) (hT : CellTree T) (ghost : Nat → Bool) (seed fuel' fuel : Nat) (r : ℝ) (hr : 0 < r) (l : List CellCorner) (h : getCell T ghost seed fuel' fuel r = some (some l))
    (hgp : ∀ m, m < fuel → GeneralPos T.P.pts T.P.num (T.P.pts seed) (10 * (r * 2 ^ (m + 1))))
    (hsep : ∀ z, z < T.P.num → euclid 3 (T.P.pts z) (T.P.pts seed) = 0 ∨ 2e-5 ≤ euclid 3 (T.P.pts z) (T.P.pts seed)) (z : Nat → ℝ) :
    (∃ p ∈ convexHull ℝ {v | ∃ q ∈ l, q.x = v}, ∀ k, k < 3 → p k = z k) ↔ ∀ y, y < T.P.num → euclid 3 z (T.P.pts seed) ≤ euclid 3 z (T.P.pts y) := by
  obtain ⟨m, q0, qs, P, hm, hq, hc, hrv, hl⟩ := getCell_round fuel h
  have hg := hgp m hm
  generalize hρ : r * 2 ^ (m + 1) = ρ at *
  have hρ0 : 0 < ρ := by rw [← hρ]; positivity
  obtain ⟨loc, e, hnd, h2, h3⟩ := C08_in_sphere_sound_complete T.P T.ln hT.tree (fun _ => true) (T.P.pts seed) ρ hρ0.le
  obtain rfl := Option.some.inj (e.symm.trans hq)
  rw [hT.dim] at h3
  have hloc : ∀ a ∈ q0 :: qs, a < T.P.num := fun a ha => (h2 a ha).1
  generalize q0 :: qs = loc at *
  have hgl := hg.toLoc hnd hloc
  have hB : 0 < 10 * ρ := by linarith
  have hst := cellLoop_state hB hgl fuel' (CellState.start hB) hc
  have hset : ∀ a v, P.pos a = some v → CornerSettled (T.P.pts seed) (loc.map T.P.pts) v := by
    rcases cellLoop_spec (x := T.P.pts seed) (loc := loc.map T.P.pts) fuel' (initPoly_wf _ (10 * ρ)) (c := 0) (by simp) with g | ⟨R, e1, -, e3⟩
    · rw [hc] at g; simp at g
    · rw [hc] at e1
      obtain rfl := Option.some.inj (Option.some.inj e1)
      exact e3
  have hset' : {v | ∃ q ∈ l, q.x = v} = {v | ∃ c, P.pos c = some v} := by
    ext v
    constructor
    · rintro ⟨q, hq, rfl⟩
      obtain ⟨a, v, -, -, hv, hres⟩ := resultCorners_mem _ hl q hq
      rw [(resultCorner_x hres).1]
      exact ⟨a, hv⟩
    · rintro ⟨a, hv⟩
      obtain ⟨q, hq, hres⟩ := resultCorners_all _ hl a v (Nat.zero_le _) (by have := hst.shape.wf.fin a (live_of_pos hv); omega) hv
      exact ⟨q, hq, (resultCorner_x hres).1⟩
  -- all walls are bisectors
  have hpt : ∀ c i, P.Live c → i < 3 → ∃ j y, P.wall c i = some (Wall.pt j) ∧ loc[j]? = some y ∧ euclid 3 (T.P.pts y) (T.P.pts seed) ≠ 0 := fun c i hlv hi => by
    obtain ⟨v, hv⟩ := Option.ne_none_iff_exists'.1 hlv
    obtain ⟨q, -, hres⟩ := resultCorners_all _ hl c v (Nat.zero_le _) (by have := hst.shape.wf.fin c hlv; omega) hv
    have := triple?_eq (resultCorner_x hres).2.2.1 i hi
    obtain ⟨w, hw, hlw⟩ := hst.wall_loc hlv hi
    rw [hw] at this
    rcases hlw with ⟨k, -, rfl⟩ | ⟨j, y, rfl, e1, e2⟩
    · simp [wallSeed] at this
    · rw [List.getElem?_map, Option.map_eq_some_iff] at e1
      obtain ⟨y, hy, rfl⟩ := e1
      exact ⟨j, y, hw, hy, e2⟩
  rw [hset']
  show P.Solid z ↔ _
  constructor
  · intro hz y hy
    by_cases hyx : euclid 3 (T.P.pts y) (T.P.pts seed) = 0
    · have := euclid_triangle 3 z (T.P.pts y) (T.P.pts seed)
      linarith
    rw [← bisector_le hyx]
    refine hz.le fun c v hv => ?_
    by_cases hin : euclid 3 (T.P.pts seed) (T.P.pts y) < ρ
    · refine hst.settled hgl (fun w hw => ?_) hv (hset c v hv) (List.mem_map_of_mem (h3 y hy rfl hin)) hyx
      obtain ⟨i, hi, rfl⟩ := List.mem_map.1 hw
      exact hsep i (hloc i hi)
    · have hlv := live_of_pos hv
      by_cases hmem : y ∈ loc
      · refine hst.settled hgl (fun w hw => ?_) hv (hset c v hv) (List.mem_map_of_mem hmem) hyx
        obtain ⟨i, hi, rfl⟩ := List.mem_map.1 hw
        exact hsep i (hloc i hi)
      have hfar := farthestSq_le (x := T.P.pts seed) P.num c (hst.shape.wf.fin c hlv) v hv
      have h5 : euclid 3 v (T.P.pts seed) ≤ Real.sqrt (farthestSq (T.P.pts seed) P P.num) := by
        rw [← sqrt_distSq3]; exact Real.sqrt_le_sqrt hfar
      have hlt := far_side hyx (by rw [euclid_comm]; exact not_lt.1 hin) (show 2 * euclid 3 v (T.P.pts seed) < ρ + 1e-10 by linarith)
      have hwl : ∀ i, i < 3 → ∃ w, P.wall c i = some w ∧ LocWall (T.P.pts seed) (loc.map T.P.pts) w ∧ Wall.pt y ≠ toSeed loc w := fun i hi => by
        obtain ⟨j, y', h4, h6, h7⟩ := hpt c i hlv hi
        refine ⟨_, h4, Or.inr ⟨j, _, rfl, by rw [List.getElem?_map, h6]; rfl, h7⟩, fun q => hmem ?_⟩
        simp only [toSeed, List.getD_eq_getElem?_getD, h6, Option.getD_some, Wall.pt.injEq] at q
        rw [q]
        exact List.mem_of_getElem? h6
      obtain ⟨w0, a0, b0, c0⟩ := hwl 0 (by omega)
      obtain ⟨w1, a1, b1, c1⟩ := hwl 1 (by omega)
      obtain ⟨w2, a2, b2, c2⟩ := hwl 2 (by omega)
      have o0 := hst.shape.on c v 0 (by omega) hv
      have o1 := hst.shape.on c v 1 (by omega) hv
      have o2 := hst.shape.on c v 2 (by omega) hv
      rw [a0] at o0
      rw [a1] at o1
      rw [a2] at o2
      have d01 : w0 ≠ w1 := fun q => absurd (hst.shape.diff c 0 1 hlv (by omega) (by omega) (by rw [a0, a1, q])) (by omega)
      have d02 : w0 ≠ w2 := fun q => absurd (hst.shape.diff c 0 2 hlv (by omega) (by omega) (by rw [a0, a2, q])) (by omega)
      have d12 : w1 ≠ w2 := fun q => absurd (hst.shape.diff c 1 2 hlv (by omega) (by omega) (by rw [a1, a2, q])) (by omega)
      have := hg _ _ _ y v (toSeed_wall hloc b0).1 (toSeed_wall hloc b1).1 (toSeed_wall hloc b2).1 (fun q => d01 (toSeed_inj hnd b0 b1 q)) (fun q => d02 (toSeed_inj hnd b0 b2 q)) (fun q => d12 (toSeed_inj hnd b1 b2 q)) hy hyx c0 c1 c2
        (((toSeed_wall hloc b0).2 _ v).trans o0) (((toSeed_wall hloc b1).2 _ v).trans o1) (((toSeed_wall hloc b2).2 _ v).trans o2)
      rcases this with g | g
      · exact g.le
      · linarith
  · intro hz
    refine (hst.shape.solid hst.left z).2 fun c i hi hlv => ?_
    obtain ⟨j, y, h4, h6, h7⟩ := hpt c i hlv hi
    rw [h4]
    unfold hgt
    rw [cellPl_pt (show (loc.map T.P.pts)[j]? = some (T.P.pts y) by rw [List.getElem?_map, h6]; rfl)]
    exact (bisector_le h7 z).2 (hz y (hloc y (List.mem_of_getElem? h6)))

/-! ## C52 -/

/-- The difference of the squared distances along a segment from `x`. -/
theorem along_cell (x y v : Nat → ℝ) (t : ℝ) : distSq3 (fun d => x d + t * (v d - x d)) y - distSq3 (fun d => x d + t * (v d - x d)) x = (1 - t) * distSq3 y x + t * (distSq3 v y - distSq3 v x) := by
  unfold distSq3; ring

theorem dist_mono {a b c d : Nat → ℝ} : euclid 3 a b ≤ euclid 3 c d ↔ distSq3 a b ≤ distSq3 c d := by
  rw [distSq3_sq, distSq3_sq, pow_le_pow_iff_left₀ (euclid_nonneg 3 a b) (euclid_nonneg 3 c d) (by norm_num)]

/-- When the cell has a radius of less than half of `ρ`, the seeds nearer than `ρ` determine it. -/
theorem near_cell {pts : Nat → Nat → ℝ} {num : Nat} {x : Nat → ℝ} {ρ : ℝ} (hD : ∀ z, (∀ y, y < num → euclid 3 z x ≤ euclid 3 z (pts y)) → 2 * euclid 3 z x < ρ) {v : Nat → ℝ}
    (hv : ∀ y, y < num → euclid 3 x (pts y) < ρ → euclid 3 v x ≤ euclid 3 v (pts y)) : ∀ y, y < num → euclid 3 v x ≤ euclid 3 v (pts y) := by
  by_contra hno
  push Not at hno
  -- how far towards `v` the point stays nearer to `x`
  let bad : Finset Nat := (Finset.range num).filter fun y => euclid 3 v (pts y) < euclid 3 v x
  have hne : bad.Nonempty := by
    obtain ⟨y, h1, h2⟩ := hno
    exact ⟨y, Finset.mem_filter.2 ⟨Finset.mem_range.2 h1, h2⟩⟩
  let tt : Nat → ℝ := fun y => distSq3 (pts y) x / (distSq3 (pts y) x + (distSq3 v x - distSq3 v (pts y)))
  have hbad : ∀ {y}, y ∈ bad → y < num ∧ 0 < distSq3 v x - distSq3 v (pts y) := fun {y} hy => by
    obtain ⟨h1, h2⟩ := Finset.mem_filter.1 hy
    have := mt dist_mono.2 (not_le.2 h2)
    exact ⟨Finset.mem_range.1 h1, by linarith⟩
  have hn : ∀ y, 0 ≤ distSq3 (pts y) x := fun y => by rw [distSq3_sq]; positivity
  obtain ⟨y, hy, hmin⟩ := bad.exists_min_image tt hne
  obtain ⟨hyn, hyb⟩ := hbad hy
  have ht0 : 0 ≤ tt y := div_nonneg (hn y) (by linarith [hn y])
  have ht1 : tt y ≤ 1 := by
    rw [div_le_one (by linarith [hn y])]; linarith
  have hin : ∀ u, u < num → euclid 3 (fun d => x d + tt y * (v d - x d)) x ≤ euclid 3 (fun d => x d + tt y * (v d - x d)) (pts u) := fun u hu => by
    rw [dist_mono]
    have ha := along_cell x (pts u) v (tt y)
    by_cases hub : u ∈ bad
    · have := hmin u hub
      obtain ⟨-, h2⟩ := hbad hub
      have hd : 0 < distSq3 (pts u) x + (distSq3 v x - distSq3 v (pts u)) := by linarith [hn u]
      have h3 : tt y * (distSq3 (pts u) x + (distSq3 v x - distSq3 v (pts u))) ≤ distSq3 (pts u) x := (le_div_iff₀ hd).1 this
      nlinarith
    · have : euclid 3 v x ≤ euclid 3 v (pts u) := by
        by_contra hh
        exact hub (Finset.mem_filter.2 ⟨Finset.mem_range.2 hu, not_le.1 hh⟩)
      have := dist_mono.1 this
      have h4 := mul_nonneg ht0 (show 0 ≤ distSq3 v (pts u) - distSq3 v x by linarith)
      have h5 := mul_nonneg (show 0 ≤ 1 - tt y by linarith) (hn u)
      linarith
  have h1 := hD _ hin
  have hon : euclid 3 (fun d => x d + tt y * (v d - x d)) x = euclid 3 (fun d => x d + tt y * (v d - x d)) (pts y) := by
    refine le_antisymm (hin y hyn) (dist_mono.2 ?_)
    have ha := along_cell x (pts y) v (tt y)
    have h3 : tt y * (distSq3 (pts y) x + (distSq3 v x - distSq3 v (pts y))) = distSq3 (pts y) x := div_mul_cancel₀ _ (by linarith [hn y])
    nlinarith
  have htri := euclid_triangle 3 x (fun d => x d + tt y * (v d - x d)) (pts y)
  rw [← hon, euclid_comm 3 x (fun d => x d + tt y * (v d - x d))] at htri
  have := dist_mono.1 (hv y hyn (by linarith))
  linarith

/-- A point on a side of the box is far away. -/
theorem box_far {x v : Nat → ℝ} {B : ℝ} (hB : 0 < B) {k : Nat} (hk : k < 6) (h : side (boxPlane x B k).1 (boxPlane x B k).2 v = 0) : B ≤ euclid 3 v x := by
  refine le_of_sq_le_sq ?_ (euclid_nonneg 3 v x)
  rw [← distSq3_sq]
  unfold distSq3
  unfold side boxPlane at h
  interval_cases k <;> simp [boxNormal] at h <;> nlinarith [sq_nonneg (v 0 - x 0), sq_nonneg (v 1 - x 1), sq_nonneg (v 2 - x 2)]

/-- One round: the loop ends for a polytope whose corners are left by it, and that is accepted only without a wall of the box. -/
theorem round_ends {T : MTree} (hT : CellTree T) {seed : Nat} (hs : seed < T.P.num) {ρ : ℝ} (hρ : 1e-11 ≤ ρ) (hg : GeneralPos T.P.pts T.P.num (T.P.pts seed) (10 * ρ)) (ghost : Nat → Bool) :
    ∃ F q qs, sphereQuery Rounding.exact T.P T.ln (fun _ => true) (inSphereTest ρ) (T.P.pts seed) ρ = some (q :: qs) ∧ ∀ fuel', F ≤ fuel' → ∃ P,
      cellLoop (T.P.pts seed) ((q :: qs).map T.P.pts) fuel' 0 (initPoly (T.P.pts seed) (10 * ρ)) = some (some P) ∧
      (2 * Real.sqrt (farthestSq (T.P.pts seed) P P.num) < ρ + 1e-10 → ∃ l, resultCorners ghost T.P.pts (T.P.pts seed) (q :: qs) P P.num 0 = some l) ∧
      ((∀ z, z < T.P.num → euclid 3 (T.P.pts z) (T.P.pts seed) = 0 ∨ 2e-5 ≤ euclid 3 (T.P.pts z) (T.P.pts seed)) →
        (∀ z, (∀ y, y < T.P.num → euclid 3 z (T.P.pts seed) ≤ euclid 3 z (T.P.pts y)) → 2 * euclid 3 z (T.P.pts seed) < ρ) → 2 * Real.sqrt (farthestSq (T.P.pts seed) P P.num) < ρ + 1e-10) := by
  have hρ0 : 0 < ρ := lt_of_lt_of_le (by norm_num) hρ
  obtain ⟨loc, e, hnd, h2, h3⟩ := C08_in_sphere_sound_complete T.P T.ln hT.tree (fun _ => true) (T.P.pts seed) ρ hρ0.le
  rw [hT.dim] at h3
  have hme : seed ∈ loc := h3 seed hs rfl (by rw [euclid_self]; exact hρ0)
  have hloc : ∀ a ∈ loc, a < T.P.num := fun a ha => (h2 a ha).1
  have hgl := hg.toLoc hnd hloc
  have hB : 0 < 10 * ρ := by linarith
  obtain ⟨F, hF⟩ := cellLoop_ends hB hgl _ _ 0 _ (CellState.start (x := T.P.pts seed) hB) (le_refl _) (le_refl _)
  cases loc with
  | nil => simp at hme
  | cons q qs =>
    refine ⟨F, q, qs, e, fun fuel' hf => ?_⟩
    generalize q :: qs = loc at *
    obtain ⟨P, hc⟩ := hF fuel' hf
    have hst := cellLoop_state hB hgl fuel' (CellState.start hB) hc
    have hset : ∀ a v, P.pos a = some v → CornerSettled (T.P.pts seed) (loc.map T.P.pts) v := by
      rcases cellLoop_spec (x := T.P.pts seed) (loc := loc.map T.P.pts) fuel' (initPoly_wf _ (10 * ρ)) (c := 0) (by simp) with g | ⟨R, e1, -, e3⟩
      · rw [hc] at g; simp at g
      · rw [hc] at e1
        obtain rfl := Option.some.inj (Option.some.inj e1)
        exact e3
    refine ⟨P, hc, fun hacc => ?_, fun hsep hD => ?_⟩
    · rw [← Option.ne_none_iff_exists']
      intro hn
      obtain ⟨a, i, b, hi, ha, hb⟩ := resultCorners_none hst.shape.wf (cellLoop_walls fuel' (initPoly_walls _ _ _) hc) _ hn
      obtain ⟨v, hv⟩ := Option.ne_none_iff_exists'.1 ha
      have hb6 : b < 6 := by
        rcases hst.walls a i _ hb with ⟨k, hk, e1⟩ | ⟨j, y, e1, -⟩
        · simp only [Wall.box.injEq] at e1; omega
        · simp at e1
      have hon := hst.shape.on a v i hi hv
      rw [hb] at hon
      have h1 := box_far hB hb6 hon
      have h4 := farthestSq_le (x := T.P.pts seed) P.num a (hst.shape.wf.fin a ha) v hv
      have h5 : euclid 3 v (T.P.pts seed) ≤ Real.sqrt (farthestSq (T.P.pts seed) P P.num) := by
        rw [← sqrt_distSq3]; exact Real.sqrt_le_sqrt h4
      norm_num at hρ hacc
      linarith
    · have hfar : farthestSq (T.P.pts seed) P P.num ≤ (ρ / 2) ^ 2 := by
        refine CellRun.farthestSq_bound (by positivity) _ fun c _ v hv => ?_
        have hv' := hD v (near_cell hD fun y hy hin => by
          by_cases hyx : euclid 3 (T.P.pts y) (T.P.pts seed) = 0
          · have := euclid_triangle 3 v (T.P.pts y) (T.P.pts seed)
            linarith
          · refine (bisector_le hyx v).1 (hst.settled hgl (fun w hw => ?_) hv (hset c v hv) (List.mem_map_of_mem (h3 y hy rfl hin)) hyx)
            obtain ⟨i, hi, rfl⟩ := List.mem_map.1 hw
            exact hsep i (hloc i hi))
        rw [distSq3_sq]
        exact pow_le_pow_left₀ (euclid_nonneg 3 v _) (by linarith) 2
      have : Real.sqrt (farthestSq (T.P.pts seed) P P.num) ≤ ρ / 2 := Real.sqrt_le_iff.2 ⟨by linarith, hfar⟩
      have : (0 : ℝ) < 1e-10 := by norm_num
      linarith

/-- **C52** (in part): for seeds in general position and not nearer than 2e-5 to the seed of the cell, a cell is returned, at the latest in the first round whose search radius exceeds the diameter of the Voronoi cell
around the seed.  Missing: without general position it is not known that the loop over the corners ends; unbounded cells and a sizing of zero never end (`C52_single_seed_false`, `C52_zero_radius_false`). -/
theorem C52_generic_partial (T : MTree) (hT : CellTree T) (ghost : Nat → Bool) (seed : Nat) (hs : seed < T.P.num)
    (hsep : ∀ z, z < T.P.num → euclid 3 (T.P.pts z) (T.P.pts seed) = 0 ∨ 2e-5 ≤ euclid 3 (T.P.pts z) (T.P.pts seed)) (M : Nat) : ∀ (r : ℝ), 1e-11 ≤ r →
    (∀ m, m ≤ M → GeneralPos T.P.pts T.P.num (T.P.pts seed) (10 * (r * 2 ^ (m + 1)))) →
    (∀ z, (∀ y, y < T.P.num → euclid 3 z (T.P.pts seed) ≤ euclid 3 z (T.P.pts y)) → 2 * euclid 3 z (T.P.pts seed) < r * 2 ^ (M + 1)) →
    ∃ F, ∀ fuel' fuel, F ≤ fuel' → M < fuel → ∃ l, getCell T ghost seed fuel' fuel r = some (some l) := by
  induction M with
  | zero =>
    intro r hr hgp hD
    have hg := hgp 0 (le_refl _)
    rw [zero_add, pow_one] at hg hD
    obtain ⟨F, q, qs, e, hF⟩ := round_ends hT hs (ρ := r * 2) (by norm_num at hr ⊢; linarith) hg ghost
    refine ⟨F, fun fuel' fuel h1 h2 => ?_⟩
    obtain ⟨f, rfl⟩ := Nat.exists_eq_add_of_le' h2
    obtain ⟨P, hc, hres, hacc⟩ := hF fuel' h1
    have hacc' := hacc hsep hD
    obtain ⟨l, hl⟩ := hres hacc'
    refine ⟨l, ?_⟩
    rw [getCell]
    simp only [e, hc]
    rw [if_pos hacc', hl]
    rfl
  | succ M ih =>
    intro r hr hgp hD
    have hg := hgp 0 (Nat.zero_le _)
    rw [zero_add, pow_one] at hg
    obtain ⟨F, q, qs, e, hF⟩ := round_ends hT hs (ρ := r * 2) (by norm_num at hr ⊢; linarith) hg ghost
    obtain ⟨F', hF'⟩ := ih (r * 2) (by norm_num at hr ⊢; linarith) (fun m hm => by
      have := hgp (m + 1) (by omega)
      rwa [show r * 2 ^ (m + 1 + 1) = r * 2 * 2 ^ (m + 1) by ring] at this) (by rwa [show r * 2 ^ (M + 1 + 1) = r * 2 * 2 ^ (M + 1) by ring] at hD)
    refine ⟨max F F', fun fuel' fuel h1 h2 => ?_⟩
    obtain ⟨f, rfl⟩ := Nat.exists_eq_add_of_le' (show 1 ≤ fuel by omega)
    obtain ⟨P, hc, hres, -⟩ := hF fuel' (le_trans (le_max_left _ _) h1)
    rw [getCell]
    simp only [e, hc]
    by_cases hacc : 2 * Real.sqrt (farthestSq (T.P.pts seed) P P.num) < r * 2 + 1e-10
    · obtain ⟨l, hl⟩ := hres hacc
      rw [if_pos hacc, hl]
      exact ⟨l, rfl⟩
    · rw [if_neg hacc]
      exact hF' fuel' f (le_trans (le_max_right _ _) h1) (by omega)

end VoroCrust
