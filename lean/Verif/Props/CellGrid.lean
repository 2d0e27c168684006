import Verif.Props.CellGap
import Verif.Props.Cover

/-!
# Seeds on a grid

Seeds with integer coordinates are as far from general position as can be, but there are gaps: the cell is found and exact.
-/

namespace VoroCrust

open Classical

/-- The coordinates relative to `x` are integers up to 100. -/
def OnGrid (pts : Nat → Nat → ℝ) (num : Nat) (x : Nat → ℝ) : Prop := ∀ z, z < num → ∃ g : Nat → ℤ, ∀ k, k < 3 → pts z k - x k = g k ∧ |g k| ≤ 100

/-- A plane with integer coefficients. -/
structure IntPlane (x : Nat → ℝ) (p : (Nat → ℝ) × (Nat → ℝ)) (n : Nat → ℤ) (s : ℤ) : Prop where
  eq : ∀ v, side p.1 p.2 v = 0 ↔ 2 * ((n 0 : ℝ) * (v 0 - x 0) + n 1 * (v 1 - x 1) + n 2 * (v 2 - x 2)) = s
  small : ∀ k, k < 3 → |n k| ≤ 100

theorem box_int (x : Nat → ℝ) (b : ℤ) {k : Nat} (hk : k < 6) : ∃ n s, IntPlane x (boxPlane x b k) n s := by
  refine ⟨fun d => if k = 0 then (if d = 0 then 1 else 0) else if k = 1 then (if d = 1 then 1 else 0) else if k = 2 then (if d = 0 then -1 else 0) else if k = 3 then (if d = 1 then -1 else 0)
    else if k = 4 then (if d = 2 then 1 else 0) else (if d = 2 then -1 else 0), 2 * b, fun v => ?_, fun d hd => ?_⟩
  · interval_cases k <;> simp [boxPlane, boxNormal, side] <;> constructor <;> intro h <;> linarith
  · interval_cases k <;> interval_cases d <;> simp

theorem bisector_int {x y : Nat → ℝ} (hy : euclid 3 y x ≠ 0) {g : Nat → ℤ} (hg : ∀ k, k < 3 → y k - x k = g k ∧ |g k| ≤ 100) : IntPlane x (bisector x y) g (g 0 ^ 2 + g 1 ^ 2 + g 2 ^ 2) := by
  refine ⟨fun v => ?_, fun k hk => (hg k hk).2⟩
  have hpos : 0 < euclid 3 y x := lt_of_le_of_ne (euclid_nonneg 3 y x) (Ne.symm hy)
  show side (midPoint x y) (bisectorNormal x y) v = 0 ↔ _
  rw [side_bisector, dotDiff_self, sqrt_distSq3, div_eq_zero_iff, or_iff_left hpos.ne']
  unfold dotDiff distSq3
  rw [(hg 0 (by omega)).1, (hg 1 (by omega)).1, (hg 2 (by omega)).1]
  push_cast
  constructor <;> intro h <;> linarith

theorem wall_int {pts : Nat → Nat → ℝ} {num : Nat} {x : Nat → ℝ} (hg : OnGrid pts num x) (b : ℤ) {w : Wall} (hw : SeedWall pts num x w) : ∃ n s, IntPlane x (seedPl x b pts w) n s := by
  rcases hw with ⟨k, hk, rfl⟩ | ⟨z, rfl, hz, hne⟩
  · exact box_int x b hk
  · obtain ⟨g, h⟩ := hg z hz
    exact ⟨g, _, bisector_int hne h⟩

/-- The determinant of three integer normals. -/
def detInt (a b c : Nat → ℤ) : ℤ := a 0 * (b 1 * c 2 - b 2 * c 1) + a 1 * (b 2 * c 0 - b 0 * c 2) + a 2 * (b 0 * c 1 - b 1 * c 0)

theorem prod3_le {a b c : ℤ} (ha : |a| ≤ 100) (hb : |b| ≤ 100) (hc : |c| ≤ 100) : |a * b * c| ≤ 1000000 := by
  rw [abs_mul, abs_mul]
  have h1 : |a| * |b| ≤ 100 * 100 := mul_le_mul ha hb (abs_nonneg _) (by norm_num)
  calc |a| * |b| * |c| ≤ 100 * 100 * 100 := mul_le_mul h1 hc (abs_nonneg _) (by norm_num)
    _ = 1000000 := by norm_num

theorem detInt_le {a b c : Nat → ℤ} (ha : ∀ k, k < 3 → |a k| ≤ 100) (hb : ∀ k, k < 3 → |b k| ≤ 100) (hc : ∀ k, k < 3 → |c k| ≤ 100) : |detInt a b c| ≤ 6000000 := by
  have h1 := abs_le.1 (prod3_le (ha 0 (by omega)) (hb 1 (by omega)) (hc 2 (by omega)))
  have h2 := abs_le.1 (prod3_le (ha 0 (by omega)) (hb 2 (by omega)) (hc 1 (by omega)))
  have h3 := abs_le.1 (prod3_le (ha 1 (by omega)) (hb 2 (by omega)) (hc 0 (by omega)))
  have h4 := abs_le.1 (prod3_le (ha 1 (by omega)) (hb 0 (by omega)) (hc 2 (by omega)))
  have h5 := abs_le.1 (prod3_le (ha 2 (by omega)) (hb 0 (by omega)) (hc 1 (by omega)))
  have h6 := abs_le.1 (prod3_le (ha 2 (by omega)) (hb 1 (by omega)) (hc 0 (by omega)))
  have e : detInt a b c = a 0 * b 1 * c 2 - a 0 * b 2 * c 1 + (a 1 * b 2 * c 0 - a 1 * b 0 * c 2) + (a 2 * b 0 * c 1 - a 2 * b 1 * c 0) := by unfold detInt; ring
  rw [e, abs_le]
  constructor <;> linarith [h1.1, h1.2, h2.1, h2.2, h3.1, h3.2, h4.1, h4.2, h5.1, h5.2, h6.1, h6.2]

/-- Planes that meet in one point only have independent normals. -/
theorem meet_det {x : Nat → ℝ} {p q r : (Nat → ℝ) × (Nat → ℝ)} {a b c : Nat → ℤ} {sa sb sc : ℤ} (ha : IntPlane x p a sa) (hb : IntPlane x q b sb) (hc : IntPlane x r c sc) {v : Nat → ℝ} (h : MeetAt p q r v) : detInt a b c ≠ 0 := by
  intro h0
  have hdet : (Matrix.of ![![(a 0 : ℝ), a 1, a 2], ![(b 0 : ℝ), b 1, b 2], ![(c 0 : ℝ), c 1, c 2]]).det = 0 := by
    rw [Matrix.det_fin_three]
    have : ((detInt a b c : ℤ) : ℝ) = 0 := by rw [h0]; simp
    unfold detInt at this
    push_cast at this
    simp
    linarith
  obtain ⟨d, hd0, hd⟩ := Matrix.exists_mulVec_eq_zero_iff.2 hdet
  have e0 := congrFun hd 0
  have e1 := congrFun hd 1
  have e2 := congrFun hd 2
  simp [Matrix.mulVec, dotProduct, Fin.sum_univ_three] at e0 e1 e2
  obtain ⟨o0, o1, o2, hu⟩ := h
  rw [ha.eq] at o0
  rw [hb.eq] at o1
  rw [hc.eq] at o2
  let u : Nat → ℝ := fun k => v k + (if k = 0 then d 0 else if k = 1 then d 1 else d 2)
  have u0 : u 0 = v 0 + d 0 := by simp [u]
  have u1 : u 1 = v 1 + d 1 := by simp [u]
  have u2 : u 2 = v 2 + d 2 := by simp [u]
  have key := hu u (by rw [ha.eq, u0, u1, u2]; linarith) (by rw [hb.eq, u0, u1, u2]; linarith) (by rw [hc.eq, u0, u1, u2]; linarith)
  have k0 := key 0 (by omega)
  have k1 := key 1 (by omega)
  have k2 := key 2 (by omega)
  rw [u0] at k0
  rw [u1] at k1
  rw [u2] at k2
  refine hd0 (funext fun i => ?_)
  fin_cases i
  · show d 0 = 0; linarith
  · show d 1 = 0; linarith
  · show d 2 = 0; linarith

/-- **A grid has gaps.** -/
theorem grid_gap {pts : Nat → Nat → ℝ} {num : Nat} {x : Nat → ℝ} (hg : OnGrid pts num x) (b : ℤ) : GapPos pts num x b := by
  intro wa wb wc z v ha hb hc hz hzx hm
  obtain ⟨a, sa, pa⟩ := wall_int hg b ha
  obtain ⟨b', sb, pb⟩ := wall_int hg b hb
  obtain ⟨c, sc, pc⟩ := wall_int hg b hc
  have hD := meet_det pa pb pc hm
  have hDle := detInt_le pa.small pb.small pc.small
  obtain ⟨o0, o1, o2, -⟩ := hm
  rw [pa.eq] at o0
  rw [pb.eq] at o1
  rw [pc.eq] at o2
  obtain ⟨g, hgz⟩ := hg z hz
  have hpos : 0 < euclid 3 (pts z) x := lt_of_le_of_ne (euclid_nonneg 3 _ x) (Ne.symm hzx)
  by_cases hle : side (midPoint x (pts z)) (bisectorNormal x (pts z)) v ≤ 0
  · exact Or.inl hle
  right
  push Not at hle
  rw [side_bisector, dotDiff_self, sqrt_distSq3, gt_iff_lt, lt_div_iff₀ hpos]
  rw [side_bisector, dotDiff_self, sqrt_distSq3, div_pos_iff_of_pos_right hpos] at hle
  have hlen : euclid 3 (pts z) x ≤ 200 := by
    rw [← sqrt_distSq3]
    refine Real.sqrt_le_iff.2 ⟨by norm_num, ?_⟩
    unfold distSq3
    have hsq : ∀ k, k < 3 → (pts z k - x k) ^ 2 ≤ 10000 := fun k hk => by
      rw [(hgz k hk).1]
      have := abs_le.1 (hgz k hk).2
      have h1 : (-100 : ℝ) ≤ g k := by exact_mod_cast this.1
      have h2 : (g k : ℝ) ≤ 100 := by exact_mod_cast this.2
      nlinarith
    have := hsq 0 (by omega)
    have := hsq 1 (by omega)
    have := hsq 2 (by omega)
    linarith
  set E := dotDiff x (pts z) v - distSq3 (pts z) x / 2 with hE
  -- twice the determinant times the excess is an integer
  have hint : ∃ m : ℤ, 2 * (detInt a b' c : ℝ) * E = m := by
    refine ⟨sa * (g 0 * (b' 1 * c 2 - b' 2 * c 1) + g 1 * (b' 2 * c 0 - b' 0 * c 2) + g 2 * (b' 0 * c 1 - b' 1 * c 0)) + sb * (g 0 * (c 1 * a 2 - c 2 * a 1) + g 1 * (c 2 * a 0 - c 0 * a 2) + g 2 * (c 0 * a 1 - c 1 * a 0)) +
      sc * (g 0 * (a 1 * b' 2 - a 2 * b' 1) + g 1 * (a 2 * b' 0 - a 0 * b' 2) + g 2 * (a 0 * b' 1 - a 1 * b' 0)) - detInt a b' c * (g 0 ^ 2 + g 1 ^ 2 + g 2 ^ 2), ?_⟩
    rw [hE]
    unfold dotDiff distSq3 detInt
    rw [(hgz 0 (by omega)).1, (hgz 1 (by omega)).1, (hgz 2 (by omega)).1]
    push_cast
    rw [← o0, ← o1, ← o2]
    ring
  obtain ⟨m, hm⟩ := hint
  have hDpos : (0 : ℝ) < |(detInt a b' c : ℝ)| := abs_pos.2 (by exact_mod_cast hD)
  have hm0 : m ≠ 0 := fun q => by
    rw [q, Int.cast_zero, mul_eq_zero, mul_eq_zero] at hm
    rcases hm with (h | h) | h
    · norm_num at h
    · exact hD (by exact_mod_cast h)
    · linarith
  have h1 : (1 : ℝ) ≤ |(m : ℝ)| := by exact_mod_cast Int.one_le_abs hm0
  rw [← hm, abs_mul, abs_mul, abs_of_pos (by norm_num : (0 : ℝ) < 2), abs_of_pos hle] at h1
  have hD6 : |(detInt a b' c : ℝ)| ≤ 6000000 := by exact_mod_cast hDle
  have hE1 : (1 : ℝ) ≤ 12000000 * E := by nlinarith
  norm_num
  linarith

/-- **C51, C52** on a grid: for seeds with integer coordinates, at most 100 from those of the seed, and a radius that is a positive integer, a cell is returned as soon as the search radius exceeds the diameter of the Voronoi cell,
and it is the Voronoi cell exactly, however many seeds are as near to its corners as the seed. -/
theorem C51_grid (T : MTree) (hT : CellTree T) (ghost : Nat → Bool) (seed : Nat) (hs : seed < T.P.num) (hg : OnGrid T.P.pts T.P.num (T.P.pts seed)) (r : Nat) (hr : 0 < r) (M : Nat)
    (hD : ∀ z, (∀ y, y < T.P.num → euclid 3 z (T.P.pts seed) ≤ euclid 3 z (T.P.pts y)) → 2 * euclid 3 z (T.P.pts seed) < r * 2 ^ (M + 1)) :
    ∃ F, ∀ fuel' fuel, F ≤ fuel' → M < fuel → ∃ l, getCell T ghost seed fuel' fuel r = some (some l) ∧
      ∀ z, (∃ p ∈ convexHull ℝ {v | ∃ q ∈ l, q.x = v}, ∀ k, k < 3 → p k = z k) ↔ ∀ y, y < T.P.num → euclid 3 z (T.P.pts seed) ≤ euclid 3 z (T.P.pts y) := by
  have hgap : ∀ m, GapPos T.P.pts T.P.num (T.P.pts seed) (10 * ((r : ℝ) * 2 ^ (m + 1))) := fun m => by
    have := grid_gap hg ((10 * (r * 2 ^ (m + 1)) : ℕ) : ℤ)
    push_cast at this
    exact this
  have hsep : ∀ z, z < T.P.num → euclid 3 (T.P.pts z) (T.P.pts seed) = 0 ∨ 2e-5 ≤ euclid 3 (T.P.pts z) (T.P.pts seed) := fun z hz => by
    obtain ⟨g, h⟩ := hg z hz
    have hsq : euclid 3 (T.P.pts z) (T.P.pts seed) ^ 2 = ((g 0 ^ 2 + g 1 ^ 2 + g 2 ^ 2 : ℤ) : ℝ) := by
      rw [← distSq3_sq]
      unfold distSq3
      rw [(h 0 (by omega)).1, (h 1 (by omega)).1, (h 2 (by omega)).1]
      push_cast
      ring
    by_cases h0 : g 0 ^ 2 + g 1 ^ 2 + g 2 ^ 2 = 0
    · left
      rw [h0, Int.cast_zero] at hsq
      exact pow_eq_zero_iff (two_ne_zero) |>.1 hsq
    · right
      have h1 : (1 : ℤ) ≤ g 0 ^ 2 + g 1 ^ 2 + g 2 ^ 2 := by have := sq_nonneg (g 0); have := sq_nonneg (g 1); have := sq_nonneg (g 2); omega
      have h2 : (1 : ℝ) ≤ euclid 3 (T.P.pts z) (T.P.pts seed) ^ 2 := by rw [hsq]; exact_mod_cast h1
      have : (1 : ℝ) ≤ euclid 3 (T.P.pts z) (T.P.pts seed) := by
        by_contra hno
        push Not at hno
        have := euclid_nonneg 3 (T.P.pts z) (T.P.pts seed)
        nlinarith
      norm_num
      linarith
  have hr1 : (1 : ℝ) ≤ r := by exact_mod_cast hr
  obtain ⟨F, hF⟩ := C52_gap_partial T hT ghost seed hs hsep M r (by norm_num; linarith) (fun m _ => hgap m) hD
  refine ⟨F, fun fuel' fuel h1 h2 => ?_⟩
  obtain ⟨l, hl⟩ := hF fuel' fuel h1 h2
  exact ⟨l, hl, fun z => C51_gap_partial T hT ghost seed fuel' fuel r (by linarith) l hl (fun m _ => hgap m) hsep z⟩

/-! ## A case -/

/-- The offsets of the 26 neighbours in the cubic lattice. -/
def cubeOffsets : List (ℤ × ℤ × ℤ) := ([-1, 0, 1].product ([-1, 0, 1].product [-1, 0, 1])).filter fun p => p ≠ (0, 0, 0)

/-- The origin and its 26 neighbours in the cubic lattice. -/
noncomputable def cubeSeeds : List (Nat → ℝ) := mkSphere 0 0 0 1 :: cubeOffsets.map fun p => mkSphere p.1 p.2.1 p.2.2 1

theorem cube_mem {y : Nat → ℝ} (h : y ∈ cubeSeeds) : ∃ a b c : ℤ, (a = -1 ∨ a = 0 ∨ a = 1) ∧ (b = -1 ∨ b = 0 ∨ b = 1) ∧ (c = -1 ∨ c = 0 ∨ c = 1) ∧ y = mkSphere a b c 1 := by
  unfold cubeSeeds at h
  rcases List.mem_cons.1 h with rfl | h
  · exact ⟨0, 0, 0, by simp, by simp, by simp, by simp⟩
  · obtain ⟨⟨a, b, c⟩, hp, rfl⟩ := List.mem_map.1 h
    unfold cubeOffsets at hp
    rw [List.mem_filter] at hp
    have := hp.1
    simp only [List.product, List.mem_flatMap, List.mem_map, List.mem_cons, List.not_mem_nil, or_false] at this
    obtain ⟨a', ha, q, ⟨b', hb, c', hc, rfl⟩, e⟩ := this
    simp only [Prod.mk.injEq] at e
    obtain ⟨rfl, rfl, rfl⟩ := e
    exact ⟨_, _, _, ha, hb, hc, rfl⟩

theorem cube_of {a b c : ℤ} (h : (a, b, c) ∈ cubeOffsets) : mkSphere a b c 1 ∈ cubeSeeds := List.mem_cons_of_mem _ (List.mem_map.2 ⟨(a, b, c), h, rfl⟩)

theorem cube_cell (z : Nat → ℝ) : (∀ y ∈ cubeSeeds, euclid 3 z (mkSphere 0 0 0 1) ≤ euclid 3 z y) ↔ |z 0| ≤ 1 / 2 ∧ |z 1| ≤ 1 / 2 ∧ |z 2| ≤ 1 / 2 := by
  have hd : ∀ a b c : ℤ, euclid 3 z (mkSphere 0 0 0 1) ≤ euclid 3 z (mkSphere a b c 1) ↔ 2 * (a * z 0 + b * z 1 + c * z 2) ≤ (a : ℝ) ^ 2 + (b : ℝ) ^ 2 + (c : ℝ) ^ 2 := fun a b c => by
    rw [dist_mono]
    simp only [distSq3, mkSphere]
    norm_num
    constructor <;> intro h <;> linarith
  constructor
  · intro h
    have h1 := (hd 1 0 0).1 (h _ (cube_of (by decide)))
    have h2 := (hd (-1) 0 0).1 (h _ (cube_of (by decide)))
    have h3 := (hd 0 1 0).1 (h _ (cube_of (by decide)))
    have h4 := (hd 0 (-1) 0).1 (h _ (cube_of (by decide)))
    have h5 := (hd 0 0 1).1 (h _ (cube_of (by decide)))
    have h6 := (hd 0 0 (-1)).1 (h _ (cube_of (by decide)))
    norm_num at h1 h2 h3 h4 h5 h6
    exact ⟨abs_le.2 ⟨by linarith, by linarith⟩, abs_le.2 ⟨by linarith, by linarith⟩, abs_le.2 ⟨by linarith, by linarith⟩⟩
  · rintro ⟨h0, h1, h2⟩ y hy
    obtain ⟨a, b, c, ha, hb, hc, rfl⟩ := cube_mem hy
    rw [hd]
    obtain ⟨a1, a2⟩ := abs_le.1 h0
    obtain ⟨b1, b2⟩ := abs_le.1 h1
    obtain ⟨c1, c2⟩ := abs_le.1 h2
    rcases ha with rfl | rfl | rfl <;> rcases hb with rfl | rfl | rfl <;> rcases hc with rfl | rfl | rfl <;> norm_num <;> linarith

/-- Not vacuous: for the origin and its 26 neighbours in the cubic lattice a cell is returned, and it is the unit cube; eight seeds are equally near to each of its corners. -/
theorem cube_found : ∃ (T : MTree) (F : Nat) (l : List CellCorner), CellTree T ∧ T.P.num = 27 ∧ OnGrid T.P.pts T.P.num (T.P.pts 0) ∧ getCell T (fun _ => false) 0 F 1 1 = some (some l) ∧
    (∀ z : Nat → ℝ, (∃ p ∈ convexHull ℝ {v | ∃ q ∈ l, q.x = v}, ∀ k, k < 3 → p k = z k) ↔ |z 0| ≤ 1 / 2 ∧ |z 1| ≤ 1 / 2 ∧ |z 2| ≤ 1 / 2) ∧
    ¬ GeneralPos T.P.pts T.P.num (T.P.pts 0) 20 := by
  obtain ⟨P, ln, hS, hnum, hpts⟩ := SphereTree.exists cubeSeeds (by simp [cubeSeeds]) fun y hy => by
    obtain ⟨a, b, c, -, -, -, rfl⟩ := cube_mem hy
    simp [mkSphere]
  have hlen : cubeSeeds.length = 27 := by unfold cubeSeeds; rw [List.length_cons, List.length_map]; decide
  have hall : ∀ p : (Nat → ℝ) → Prop, (∀ y, y < P.num → p (P.pts y)) ↔ ∀ y ∈ cubeSeeds, p y := fun p => by
    constructor
    · intro h y hy
      obtain ⟨i, hi, rfl⟩ := List.mem_iff_getElem.1 hy
      rw [← hpts i hi]
      exact h i (by omega)
    · intro h i hi
      rw [hpts i (by omega)]
      exact h _ (List.getElem_mem _)
  have h0 : P.pts 0 = mkSphere 0 0 0 1 := by rw [hpts 0 (by omega)]; rfl
  have hgrid : OnGrid P.pts P.num (P.pts 0) := (hall fun v => ∃ g : Nat → ℤ, ∀ k, k < 3 → v k - P.pts 0 k = g k ∧ |g k| ≤ 100).2 fun y hy => by
    obtain ⟨a, b, c, ha, hb, hc, rfl⟩ := cube_mem hy
    refine ⟨fun k => if k = 0 then a else if k = 1 then b else c, fun k hk => ?_⟩
    rw [h0]
    interval_cases k <;> simp [mkSphere]
    · rcases ha with rfl | rfl | rfl <;> norm_num
    · rcases hb with rfl | rfl | rfl <;> norm_num
    · rcases hc with rfl | rfl | rfl <;> norm_num
  have hcell : ∀ z : Nat → ℝ, (∀ y, y < P.num → euclid 3 z (P.pts 0) ≤ euclid 3 z (P.pts y)) ↔ |z 0| ≤ 1 / 2 ∧ |z 1| ≤ 1 / 2 ∧ |z 2| ≤ 1 / 2 := fun z => by
    rw [hall fun v => euclid 3 z (P.pts 0) ≤ euclid 3 z v, h0]
    exact cube_cell z
  obtain ⟨F, hF⟩ := C51_grid ⟨P, ln, fun _ => none⟩ ⟨hS.tree, hS.dim⟩ (fun _ => false) 0 (by show 0 < P.num; omega) hgrid 1 (by norm_num) 0 fun z hz => by
    obtain ⟨a, b, c⟩ := (hcell z).1 hz
    have : euclid 3 z (P.pts 0) ≤ 9 / 10 := by
      rw [← sqrt_distSq3]
      refine Real.sqrt_le_iff.2 ⟨by norm_num, ?_⟩
      rw [h0]
      simp only [distSq3, mkSphere]
      norm_num
      obtain ⟨a1, a2⟩ := abs_le.1 a
      obtain ⟨b1, b2⟩ := abs_le.1 b
      obtain ⟨c1, c2⟩ := abs_le.1 c
      nlinarith
    norm_num
    linarith
  obtain ⟨l, hl, hz⟩ := hF F 1 (le_refl _) (by norm_num)
  refine ⟨⟨P, ln, fun _ => none⟩, F, l, ⟨hS.tree, hS.dim⟩, by show P.num = 27; omega, hgrid, by simpa using hl, fun z => (hz z).trans (hcell z), fun hgen => ?_⟩
  have idx : ∀ {y}, y ∈ cubeSeeds → ∃ i, i < P.num ∧ P.pts i = y := fun {y} hy => by
    obtain ⟨i, hi, rfl⟩ := List.mem_iff_getElem.1 hy
    exact ⟨i, by omega, hpts i hi⟩
  obtain ⟨i1, l1, e1⟩ := idx (cube_of (a := 1) (b := 0) (c := 0) (by decide))
  obtain ⟨i2, l2, e2⟩ := idx (cube_of (a := 0) (b := 1) (c := 0) (by decide))
  obtain ⟨i3, l3, e3⟩ := idx (cube_of (a := 0) (b := 0) (c := 1) (by decide))
  obtain ⟨i4, l4, e4⟩ := idx (cube_of (a := 1) (b := 1) (c := 0) (by decide))
  have ne : ∀ {i j : Nat} {u v : Nat → ℝ}, P.pts i = u → P.pts j = v → (∃ k, u k ≠ v k) → Wall.pt i ≠ Wall.pt j := fun hi hj ⟨k, hk⟩ q => by
    simp only [Wall.pt.injEq] at q
    rw [← hi, ← hj, q] at hk
    exact hk rfl
  have far : ∀ a b c : ℤ, a ^ 2 + b ^ 2 + c ^ 2 ≠ 0 → euclid 3 (mkSphere a b c 1) (mkSphere 0 0 0 1) ≠ 0 := fun a b c h q => by
    have : distSq3 (mkSphere a b c 1) (mkSphere 0 0 0 1) = 0 := by rw [distSq3_sq, q]; norm_num
    simp only [distSq3, mkSphere] at this
    norm_num at this
    have h' : a * a + b * b + c * c = 0 := by exact_mod_cast this
    exact h (by rw [sq, sq, sq]; exact h')
  have on : ∀ a b c : ℤ, (a : ℝ) / 2 + b / 2 + c / 2 = ((a : ℝ) ^ 2 + b ^ 2 + c ^ 2) / 2 → side (midPoint (mkSphere 0 0 0 1) (mkSphere a b c 1)) (bisectorNormal (mkSphere 0 0 0 1) (mkSphere a b c 1)) (fun _ => 1 / 2) = 0 := fun a b c h => by
    rw [side_bisector]
    have : dotDiff (mkSphere 0 0 0 1) (mkSphere a b c 1) (fun _ => 1 / 2) - dotDiff (mkSphere 0 0 0 1) (mkSphere a b c 1) (mkSphere a b c 1) / 2 = 0 := by
      simp only [dotDiff, mkSphere]
      norm_num
      linarith
    rw [this, zero_div]
  have key := hgen (Wall.pt i1) (Wall.pt i2) (Wall.pt i3) i4 (fun _ => 1 / 2) (Or.inr ⟨i1, rfl, l1, by rw [e1, h0]; exact far _ _ _ (by norm_num)⟩) (Or.inr ⟨i2, rfl, l2, by rw [e2, h0]; exact far _ _ _ (by norm_num)⟩)
    (Or.inr ⟨i3, rfl, l3, by rw [e3, h0]; exact far _ _ _ (by norm_num)⟩) (ne e1 e2 ⟨0, by simp [mkSphere]⟩) (ne e1 e3 ⟨0, by simp [mkSphere]⟩) (ne e2 e3 ⟨1, by simp [mkSphere]⟩) l4 (by rw [e4, h0]; exact far _ _ _ (by norm_num))
    (ne e4 e1 ⟨1, by simp [mkSphere]⟩) (ne e4 e2 ⟨0, by simp [mkSphere]⟩) (ne e4 e3 ⟨0, by simp [mkSphere]⟩)
    (by show side (midPoint (P.pts 0) (P.pts i1)) (bisectorNormal (P.pts 0) (P.pts i1)) _ = 0; rw [e1, h0]; exact on _ _ _ (by norm_num))
    (by show side (midPoint (P.pts 0) (P.pts i2)) (bisectorNormal (P.pts 0) (P.pts i2)) _ = 0; rw [e2, h0]; exact on _ _ _ (by norm_num))
    (by show side (midPoint (P.pts 0) (P.pts i3)) (bisectorNormal (P.pts 0) (P.pts i3)) _ = 0; rw [e3, h0]; exact on _ _ _ (by norm_num))
  simp only [e4, h0] at key
  rw [on 1 1 0 (by norm_num)] at key
  norm_num at key

end VoroCrust
