import Verif.Props.FrontStops
import Verif.Props.GemRun

/-! The octahedron of C110 is fenced, so that its run ends whatever the random numbers (C111). -/

namespace VoroCrust

/-- The cube that the spheres leave. -/
def gemCube : Set (Nat → ℝ) := {x | ∀ d, d < 3 → |x d| ≤ 8}

theorem gem_term {a u : ℝ} (ha : 0 ≤ a) (hu0 : 0 ≤ u) (hu : u ≤ 8) : (a ≤ 8 → 0 ≤ u ^ 2 - 2 * a * u + 36 * a) ∧ (8 ≤ a → 20 * a + 64 ≤ u ^ 2 - 2 * a * u + 36 * a) := by
  constructor
  · intro h; nlinarith [sq_nonneg (u - a)]
  · intro h; nlinarith [mul_nonneg (sub_nonneg.2 h) (sub_nonneg.2 hu), sq_nonneg (8 - u)]

theorem gem_far {a b c u v w : ℝ} (hb0 : 0 ≤ b) (hc0 : 0 ≤ c) (hab : b ≤ a) (hac : c ≤ a) (ha : 8 < a) (h : 78 * a ≤ a ^ 2 + b ^ 2 + c ^ 2 + 432) (hu0 : 0 ≤ u) (hu : u ≤ 8)
    (hv0 : 0 ≤ v) (hv : v ≤ 8) (hw0 : 0 ≤ w) (hw : w ≤ 8) : 972 < u ^ 2 - 2 * a * u + 36 * a + (v ^ 2 - 2 * b * v + 36 * b) + (w ^ 2 - 2 * c * w + 36 * c) := by
  have t1 := (gem_term (by linarith) hu0 hu).2 ha.le
  have h18 : 18 ≤ a := by nlinarith [mul_nonneg hb0 hb0, mul_nonneg hc0 hc0, mul_self_le_mul_self hb0 hab, mul_self_le_mul_self hc0 hac]
  rcases le_or_gt b 8 with hb | hb <;> rcases le_or_gt c 8 with hc | hc
  · have t2 := (gem_term hb0 hv0 hv).1 hb
    have t3 := (gem_term hc0 hw0 hw).1 hc
    have : 70 ≤ a := by nlinarith [mul_self_le_mul_self hb0 hb, mul_self_le_mul_self hc0 hc]
    linarith
  · have t2 := (gem_term hb0 hv0 hv).1 hb
    have t3 := (gem_term hc0 hw0 hw).2 hc.le
    have h31 : 31 ≤ a := by nlinarith [mul_self_le_mul_self hb0 hb, mul_self_le_mul_self hc0 hac]
    have : 43 ≤ a + c := by
      by_contra hlt
      push Not at hlt
      nlinarith [mul_self_le_mul_self hb0 hb, mul_self_le_mul_self hc0 (show c ≤ 43 - a by linarith), mul_nonneg (sub_nonneg.2 h31) (show (0 : ℝ) ≤ 35 - a by linarith)]
    linarith
  · have t2 := (gem_term hb0 hv0 hv).2 hb.le
    have t3 := (gem_term hc0 hw0 hw).1 hc
    have h31 : 31 ≤ a := by nlinarith [mul_self_le_mul_self hc0 hc, mul_self_le_mul_self hb0 hab]
    have : 43 ≤ a + b := by
      by_contra hlt
      push Not at hlt
      nlinarith [mul_self_le_mul_self hc0 hc, mul_self_le_mul_self hb0 (show b ≤ 43 - a by linarith), mul_nonneg (sub_nonneg.2 h31) (show (0 : ℝ) ≤ 35 - a by linarith)]
    linarith
  · have t2 := (gem_term hb0 hv0 hv).2 hb.le
    have t3 := (gem_term hc0 hw0 hw).2 hc.le
    have : 39 < a + b + c := by
      by_contra hle
      push Not at hle
      nlinarith [mul_self_le_mul_self (add_nonneg hb0 hc0) (show b + c ≤ 39 - a by linarith), mul_nonneg hb0 hc0, mul_nonneg (sub_nonneg.2 h18) (show (0 : ℝ) ≤ 39 - a by linarith)]
    linarith

/-- A point that is not in the cube and clear of the six spheres is closer to the outer seed of its octant than to the cube. -/
theorem gem_octant {a b c u v w : ℝ} (ha : 0 ≤ a) (hb : 0 ≤ b) (hc : 0 ≤ c) (hout : 8 < a ∨ 8 < b ∨ 8 < c) (h1 : 78 * a ≤ a ^ 2 + b ^ 2 + c ^ 2 + 432) (h2 : 78 * b ≤ a ^ 2 + b ^ 2 + c ^ 2 + 432)
    (h3 : 78 * c ≤ a ^ 2 + b ^ 2 + c ^ 2 + 432) (hu0 : 0 ≤ u) (hu : u ≤ 8) (hv0 : 0 ≤ v) (hv : v ≤ 8) (hw0 : 0 ≤ w) (hw : w ≤ 8) :
    972 < u ^ 2 - 2 * a * u + 36 * a + (v ^ 2 - 2 * b * v + 36 * b) + (w ^ 2 - 2 * c * w + 36 * c) := by
  have hm : (b ≤ a ∧ c ≤ a) ∨ (a ≤ b ∧ c ≤ b) ∨ (a ≤ c ∧ b ≤ c) := by
    rcases le_total a b with h | h <;> rcases le_total b c with h' | h' <;> rcases le_total a c with h'' | h''
    all_goals first | exact .inl ⟨by linarith, by linarith⟩ | exact .inr (.inl ⟨by linarith, by linarith⟩) | exact .inr (.inr ⟨by linarith, by linarith⟩)
  rcases hm with ⟨m1, m2⟩ | ⟨m1, m2⟩ | ⟨m1, m2⟩
  · exact gem_far hb hc m1 m2 (by rcases hout with h | h | h <;> linarith) h1 hu0 hu hv0 hv hw0 hw
  · have := gem_far ha hc m1 m2 (by rcases hout with h | h | h <;> linarith) (by linarith) hv0 hv hu0 hu hw0 hw
    linarith
  · have := gem_far ha hb m1 m2 (by rcases hout with h | h | h <;> linarith) (by linarith) hw0 hw hu0 hu hv0 hv
    linarith

/-- The octant of a point. -/
theorem gem_sign (p : Nat → ℝ) : ∃ v, v < 8 ∧ ∀ d, d < 3 → p d * (gemSign v d : ℝ) = |p d| := by
  have key : ∀ s0 s1 s2 : Bool, ∃ v : Fin 8, gemSign v 0 = (if s0 then 1 else -1) ∧ gemSign v 1 = (if s1 then 1 else -1) ∧ gemSign v 2 = if s2 then 1 else -1 := by decide +kernel
  obtain ⟨v, h0, h1, h2⟩ := key (decide (0 ≤ p 0)) (decide (0 ≤ p 1)) (decide (0 ≤ p 2))
  have hs : ∀ (x : ℝ) (s : ℤ), s = (if decide (0 ≤ x) = true then 1 else -1) → x * (s : ℝ) = |x| := by
    intro x s hs
    by_cases hx : 0 ≤ x
    · rw [hs, if_pos (by simpa using hx), abs_of_nonneg hx]; simp
    · rw [hs, if_neg (by simpa using hx), abs_of_neg (not_le.1 hx)]; simp
  refine ⟨v, v.isLt, fun d hd => ?_⟩
  interval_cases d
  · exact hs _ _ h0
  · exact hs _ _ h1
  · exact hs _ _ h2

/-- A corner of the octahedron on each half axis. -/
theorem gem_axis {d : Nat} (hd : d < 3) (t : Bool) : ∃ s, s < 6 ∧ ∀ e, e < 3 → gemI s e = if e = d then (if t then 1 else -1) else 0 := by
  have key : ∀ (d : Fin 3) (t : Bool), ∃ s : Fin 6, ∀ e : Fin 3, gemI s e = if e.val = d.val then (if t then 1 else -1) else 0 := by decide +kernel
  obtain ⟨s, hs⟩ := key ⟨d, hd⟩ t
  exact ⟨s, s.isLt, fun e he => hs ⟨e, he⟩⟩

theorem gem_feature {s : Nat} (hs : s < 6) : (⟨gemSphere s, 33, 0⟩ : SeedRec) ∈ gemF.surface ∨ (⟨gemSphere s, 33, 0⟩ : SeedRec) ∈ gemF.edges ∨ (⟨gemSphere s, 33, 0⟩ : SeedRec) ∈ gemF.corners := by
  by_cases h : s < 2
  · exact .inl (recsOf_mem.2 ⟨s, h, rfl⟩)
  · refine .inr (.inl (recsOf_mem.2 ⟨s - 2, show s - 2 < 4 by omega, ?_⟩))
    show _ = (⟨gemSphere (s - 2 + 2), 33, 0⟩ : SeedRec)
    rw [show s - 2 + 2 = s by omega]

theorem gem_clear {p : Nat → ℝ} (h : ClearOf gemF p) {d : Nat} (hd : d < 3) : 78 * |p d| ≤ p 0 ^ 2 + p 1 ^ 2 + p 2 ^ 2 + 432 := by
  obtain ⟨s, hs, he⟩ := gem_axis hd (decide (0 ≤ p d))
  have h1 := h _ (gem_feature hs)
  simp only at h1
  have h2 : (33 : ℝ) ^ 2 ≤ euclid 3 p (gemSphere s) ^ 2 := by nlinarith
  rw [show euclid 3 p (gemSphere s) ^ 2 = distSq3 p (gemSphere s) by rw [distSq3_sq]] at h2
  unfold distSq3 gemSphere at h2
  simp only [show (0 : Nat) < 3 from by norm_num, show (1 : Nat) < 3 from by norm_num, show (2 : Nat) < 3 from by norm_num, if_true, he 0 (by norm_num), he 1 (by norm_num), he 2 (by norm_num)] at h2
  by_cases hp : 0 ≤ p d
  · rw [abs_of_nonneg hp]
    interval_cases d <;> simp [hp] at h2 <;> nlinarith
  · rw [abs_of_neg (not_le.1 hp)]
    interval_cases d <;> simp [hp] at h2 <;> nlinarith

theorem gem_fenced {reg : Nat → Nat} (hreg : ∀ q, q < 16 → (reg q = 0 ↔ q < 8)) {xs : List SeedRec} (hl : xs.length = 16)
    (hx : ∀ (q : Nat) (b : SeedRec), xs[q]? = some b → q < 16 ∧ b.x = mergedSeed (gemSide 18) (gemSide 8) q ∧ b.region = reg q) : Fenced gemF (1 / 4) xs gemCube := by
  refine ⟨⟨8, fun x hx => hx⟩, fun a ha h0 d hd => ?_, fun p hp hclear => ?_⟩
  · obtain ⟨q, hq⟩ := List.getElem?_of_mem ha
    obtain ⟨hq16, ex, er⟩ := hx q a hq
    have h8 : ¬ q < 8 := fun h => h0 (by rw [er]; exact (hreg q hq16).2 h)
    have key : ∀ (v : Fin 8) (d : Fin 3), gemSign v d = 1 ∨ gemSign v d = -1 := by decide +kernel
    rw [ex]
    have e : mergedSeed (gemSide 18) (gemSide 8) q d = 8 * (gemSign (q - 8) d : ℝ) := by
      unfold mergedSeed
      rw [if_neg (show ¬ q < (gemSide 18).tree.num from h8)]
      show gemSeed 8 (q - 8) d = _
      unfold gemSeed
      rw [if_pos hd]
    rw [e]
    rcases key ⟨q - 8, by omega⟩ ⟨d, hd⟩ with h | h <;> simp only at h <;> rw [h] <;> norm_num
  · obtain ⟨v, hv, hs⟩ := gem_sign p
    have hv' : v < xs.length := by omega
    obtain ⟨-, ex, er⟩ := hx v xs[v] (List.getElem?_eq_getElem hv')
    refine ⟨xs[v], List.getElem_mem hv', by rw [er]; exact (hreg v (by omega)).2 hv, fun x hxc => ?_⟩
    have e : ∀ d, d < 3 → xs[v].x d = 18 * (gemSign v d : ℝ) := fun d hd => by
      rw [ex]
      unfold mergedSeed
      rw [if_pos (show v < (gemSide 18).tree.num from hv)]
      show gemSeed 18 v d = _
      unfold gemSeed
      rw [if_pos hd]
    rw [show min (1 : ℝ) ((1 + 2 * (1 / 4)) / (2 * (1 - 1 / 4))) = 1 by norm_num, one_mul]
    have hout : 8 < |p 0| ∨ 8 < |p 1| ∨ 8 < |p 2| := by
      by_contra hc
      push Not at hc
      exact hp fun d hd => by interval_cases d <;> [exact hc.1; exact hc.2.1; exact hc.2.2]
    have hc : ∀ d, d < 3 → 78 * |p d| ≤ |p 0| ^ 2 + |p 1| ^ 2 + |p 2| ^ 2 + 432 := fun d hd => by
      rw [sq_abs, sq_abs, sq_abs]
      exact gem_clear hclear hd
    have key := gem_octant (abs_nonneg (p 0)) (abs_nonneg (p 1)) (abs_nonneg (p 2)) hout (hc 0 (by norm_num)) (hc 1 (by norm_num)) (hc 2 (by norm_num)) (abs_nonneg (x 0)) (hxc 0 (by norm_num))
      (abs_nonneg (x 1)) (hxc 1 (by norm_num)) (abs_nonneg (x 2)) (hxc 2 (by norm_num))
    have hsq : ∀ d, d < 3 → (gemSign v d : ℝ) ^ 2 = 1 := fun d hd => by
      have key : ∀ (v : Fin 8) (d : Fin 3), gemSign v d ^ 2 = 1 := by decide +kernel
      have := key ⟨v, hv⟩ ⟨d, hd⟩
      exact_mod_cast this
    have h1 : euclid 3 p xs[v].x ^ 2 < euclid 3 p x ^ 2 := by
      rw [show euclid 3 p xs[v].x ^ 2 = distSq3 p xs[v].x by rw [distSq3_sq], show euclid 3 p x ^ 2 = distSq3 p x by rw [distSq3_sq]]
      unfold distSq3
      rw [e 0 (by norm_num), e 1 (by norm_num), e 2 (by norm_num)]
      have q0 := hsq 0 (by norm_num)
      have q1 := hsq 1 (by norm_num)
      have q2 := hsq 2 (by norm_num)
      have s0 := hs 0 (by norm_num)
      have s1 := hs 1 (by norm_num)
      have s2 := hs 2 (by norm_num)
      have m0 : p 0 * x 0 ≤ |p 0| * |x 0| := by rw [← abs_mul]; exact le_abs_self _
      have m1 : p 1 * x 1 ≤ |p 1| * |x 1| := by rw [← abs_mul]; exact le_abs_self _
      have m2 : p 2 * x 2 ≤ |p 2| * |x 2| := by rw [← abs_mul]; exact le_abs_self _
      have a0 := sq_abs (x 0)
      have a1 := sq_abs (x 1)
      have a2 := sq_abs (x 2)
      nlinarith
    exact lt_of_pow_lt_pow_left₀ 2 (euclid_nonneg _ _ _) h1

/-- Not vacuous: the octahedron with seeds of size 4.  The cube has room for further seeds. -/
theorem gem_small_ends : ∃ K, ∀ (inputs : List RoundInput), (∀ inp ∈ inputs, inp.OK) → K ≤ inputs.length → ∃ out N, ∀ lf, N ≤ lf →
    generateInterior id gemF (1 / 4) 4 lf 8 inputs ((List.range 16).map fun q => ⟨mergedSeed (gemSide 18) (gemSide 8) q, 4, if q < 8 then 0 else 1⟩) = some (some out) := by
  obtain ⟨hF, hsz, hc, hz⟩ := gemF_ok
  have hx : ∀ (q : Nat) (b : SeedRec), ((List.range 16).map fun q => (⟨mergedSeed (gemSide 18) (gemSide 8) q, 4, if q < 8 then 0 else 1⟩ : SeedRec))[q]? = some b →
      q < 16 ∧ b.x = mergedSeed (gemSide 18) (gemSide 8) q ∧ b.region = if q < 8 then 0 else 1 := fun q b hb => by
    have hq : q < 16 := by simpa using (List.getElem?_eq_some_iff.1 hb).1
    simp only [List.getElem?_map, List.getElem?_range hq, Option.map_some, Option.some.injEq] at hb
    subst hb
    exact ⟨hq, rfl, rfl⟩
  obtain ⟨K, hK⟩ := C111_seeding_ends gemF hF hsz hc hz (r := 4) (rmax := 4) (by norm_num) le_rfl (fun q hq => by simp [gemF, featuresOf] at hq)
    ((List.range 16).map fun q => ⟨mergedSeed (gemSide 18) (gemSide 8) q, 4, if q < 8 then 0 else 1⟩) (fun a ha => by
      obtain ⟨q, -, rfl⟩ := List.mem_map.1 ha; exact le_rfl)
    ⟨_, List.mem_map.2 ⟨8, by simp, rfl⟩, by simp⟩ (gem_fenced (reg := fun q => if q < 8 then 0 else 1) (fun q _ => by by_cases h : q < 8 <;> simp [h]) (by simp) hx)
  refine ⟨K, fun inputs hi hl => ?_⟩
  obtain ⟨out, N, h, -⟩ := hK id monotone_id (fun _ => rfl) 8 inputs hi hl
  exact ⟨out, N, h⟩

/-- The interior stage for all random numbers. -/
theorem gem_interior_ends {ys : Nat → Bool → List (ℝ × ℝ)} (hy : ∀ i b, ∀ y ∈ ys i b, y.1 ^ 2 + y.2 ^ 2 = 1) {reg : Nat → Nat} (hreg : ∀ q, q < 16 → (reg q = 0 ↔ q < 8)) :
    ∃ K, ∀ inputs : List RoundInput, (∀ inp ∈ inputs, inp.OK) → K ≤ inputs.length → ∃ (out : RunResult) (N : Nat),
    (∀ lf, N ≤ lf → interiorRun id gemF (1 / 4) 100 lf 1 none false (gemDraws ys inputs) (seedArrays (gemSide 18) (gemSide 8) reg) = some (some out)) ∧
    out.seeds.length = 16 ∧ ∀ (q : Nat) (b : SeedRec), out.seeds[q]? = some b → b.x = mergedSeed (gemSide 18) (gemSide 8) q ∧ b.region = reg q ∧ b.size = 33 := by
  obtain ⟨hF, hsz, hc, hz⟩ := gemF_ok
  obtain ⟨xs, N1, a1, a2, hx⟩ := gem_edge_stage hy (reg := reg)
  have hx' : ∀ a ∈ xs, a.size = 33 := fun a ha => by
    obtain ⟨q, hq⟩ := List.getElem?_of_mem ha
    exact (hx q a hq).2.2.2
  have hl : 8 < xs.length := by rw [a2]; norm_num
  have e8 := hx 8 _ (List.getElem?_eq_getElem hl)
  have h4 : xs[8].region ≠ 0 := by
    rw [e8.2.2.1, Ne, hreg 8 (by norm_num)]
    norm_num
  have hD := gem_fenced hreg a2 fun q b hb => ⟨(hx q b hb).1, (hx q b hb).2.1, (hx q b hb).2.2.1⟩
  obtain ⟨K, hK⟩ := C111_seeding_ends gemF hF hsz hc hz (r := 33) (rmax := 100) (by norm_num) (by norm_num) (fun q hq => by simp [gemF, featuresOf] at hq) xs (fun a ha => (hx' a ha).ge) ⟨_, List.getElem_mem hl, h4⟩ hD
  refine ⟨K, fun inputs hi hlen => ?_⟩
  obtain ⟨out, N2, b1, b2, b3⟩ := hK id monotone_id (fun _ => rfl) 1 inputs hi hlen
  obtain ⟨r, N3, c1, c2⟩ := C50_interior_seeds (ρ := id) monotone_id (fun _ => rfl) gemF hF hsz (rmax := 100) (by norm_num) hc hz 1 inputs hi xs (fun a ha => by rw [hx' a ha]; norm_num) ⟨_, List.getElem_mem hl, h4⟩
  obtain rfl : r = some out := Option.some.inj ((c1 (max N2 N3) (le_max_right _ _)).symm.trans (b1 _ (le_max_left _ _)))
  obtain ⟨d1, d2, d3⟩ := c2 out rfl
  have hlen16 : out.length = 16 := by
    have h1 : 16 ≤ out.length := by
      obtain ⟨b, hb, -⟩ := d1 15 _ (List.getElem?_eq_getElem (show 15 < xs.length by omega))
      have := (List.getElem?_eq_some_iff.1 hb).1
      omega
    by_contra hne
    have h16 : 16 < out.length := by omega
    have hb := List.getElem?_eq_getElem h16
    have hreg0 := (d3 16 _ (by omega) hb).1
    have hcube := (b2 _ (List.getElem_mem h16)).1 hreg0
    have hfar := b3 16 _ (by omega) hb _ (List.getElem_mem hl)
    have hin := hD.inside _ (List.getElem_mem hl) h4
    have h2 : euclid 3 out[16].x xs[8].x ^ 2 ≤ 3 * 16 ^ 2 := by
      rw [show euclid 3 out[16].x xs[8].x ^ 2 = distSq3 out[16].x xs[8].x by rw [distSq3_sq]]
      unfold distSq3
      have hd : ∀ d, d < 3 → (out[16].x d - xs[8].x d) * (out[16].x d - xs[8].x d) ≤ 16 ^ 2 := fun d hd => by
        have h3 := abs_le.1 (hcube d hd)
        have h4 := abs_le.1 (hin d hd)
        nlinarith
      linarith [hd 0 (by norm_num), hd 1 (by norm_num), hd 2 (by norm_num)]
    nlinarith
  refine ⟨⟨out, [], []⟩, max N1 N2, fun lf hf => ?_, hlen16, fun q b hb => ?_⟩
  · unfold interiorRun
    simp only [gemDraws, a1 lf (by omega), imposeStage, b1 lf (by omega), finishSeeds, Option.map_some]
    rfl
  · have hq : q < xs.length := by rw [a2, ← hlen16]; exact (List.getElem?_eq_some_iff.1 hb).1
    obtain ⟨b', hb', y1, y2, y3⟩ := d1 q _ (List.getElem?_eq_getElem hq)
    obtain rfl := Option.some.inj (hb.symm.trans hb')
    obtain ⟨-, e1, e2, e3⟩ := hx q _ (List.getElem?_eq_getElem hq)
    exact ⟨y1.trans e1, y2.trans e2, le_antisymm (y3.trans e3.le) (b2 b (List.mem_of_getElem? hb)).2⟩

/-- The second part of the run for the octahedron ends with the sixteen seeds and the file of the eight cells for all random numbers: for all candidates on the edge circles and all darts. -/
theorem gem_run_ends (ys : Nat → Bool → List (ℝ × ℝ)) (hy : ∀ i b, ∀ y ∈ ys i b, y.1 ^ 2 + y.2 ^ 2 = 1) :
    ∃ K, ∀ inputs : List RoundInput, (∀ inp ∈ inputs, inp.OK) → K ≤ inputs.length → ∃ (out : RunResult) (nb : Nat → Nat) (α : Nat → Nat → ℝ) (N F : Nat), ∀ lf f' f, N ≤ lf → F ≤ f' → F ≤ f →
    ∃ R file, meshModel gemSetup gemZ (gemSide 18) (gemSide 8) (gemDraws ys inputs) lf f' f = some (some (out, some R)) ∧ EdgedSeedsOK gemZ (gemSide 18) (gemSide 8) nb α out.seeds ∧ out.seeds.length = 16 ∧
      (∀ (q : Nat) (b : SeedRec), out.seeds[q]? = some b → (b.region = 0 ↔ q < 8)) ∧ IsDiagramMesh out.seeds R.mesh ∧ R.cells = 8 ∧ R.vcg = some file ∧ VcgCells (FlatFace out.seeds) out.seeds R.seeds file := by
  obtain ⟨reg, nr, ec, hr⟩ := gem_colours hy
  obtain ⟨K, hK⟩ := gem_interior_ends hy hr
  refine ⟨K, fun inputs hin hlen => ?_⟩
  obtain ⟨out, N, ho, hl, hb⟩ := hK inputs hin hlen
  exact ⟨out, gem_run_of hy hin ec hr ho hl hb⟩

end VoroCrust
