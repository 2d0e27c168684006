import Verif.Model.EdgeDelaunay
import Verif.Props.Imposed
import Verif.Props.KdBox
import Verif.Props.MesherLip
import Verif.Props.Sliver
import Mathlib.Tactic.LinearCombination
import Mathlib.Tactic.FieldSimp
import Mathlib.Tactic.SplitIfs
import Mathlib.Tactic.IntervalCases

/-! # Seeds added on sharp edges: C87 -/

namespace VoroCrust

open Classical

/-! ## Specification -/

/-- `p` is not behind `x` in direction `e`; without a direction nothing is behind. -/
def Ahead (x : Nat → ℝ) (e : Option (Nat → ℝ)) (p : Nat → ℝ) : Prop := ∀ v, e = some v → 0 ≤ dotN (fun d => p d - x d) v

/-- `q` is one of the spheres nearest to `x` among those that satisfy `E`. -/
def NearestIn (E : Nat → SeedRec → Prop) (xs : List SeedRec) (x : Nat → ℝ) (q : SeedRec) : Prop :=
  ∃ j, xs[j]? = some q ∧ E j q ∧ ∀ (k : Nat) (p : SeedRec), xs[k]? = some p → E k p → euclid 3 x q.x ≤ euclid 3 x p.x

/-- The other edge spheres ahead of edge sphere `i`. -/
def OtherEdge (i : Nat) (s : SeedRec) (e : Option (Nat → ℝ)) (j : Nat) (q : SeedRec) : Prop := j ≠ i ∧ Ahead s.x e q.x

/-- `n` is next to edge sphere `i`: the nearest edge sphere ahead if the two overlap, otherwise the nearest corner sphere ahead. -/
def NextTo (F : Features) (i : Nat) (s : SeedRec) (e : Option (Nat → ℝ)) (n : SeedRec) : Prop :=
  (NearestIn (OtherEdge i s e) F.edges s.x n ∧ euclid 3 s.x n.x < s.size + n.size) ∨
    ((∃ q, NearestIn (OtherEdge i s e) F.edges s.x q ∧ s.size + q.size ≤ euclid 3 s.x q.x) ∧ NearestIn (fun _ q => Ahead s.x e q.x) F.corners s.x n)

/-- There is an edge sphere ahead, and a corner sphere if it does not overlap. -/
def HasNext (F : Features) (i : Nat) (s : SeedRec) (e : Option (Nat → ℝ)) : Prop :=
  (∃ (j : Nat) (q : SeedRec), F.edges[j]? = some q ∧ OtherEdge i s e j q) ∧
    ∀ q, NearestIn (OtherEdge i s e) F.edges s.x q → s.size + q.size ≤ euclid 3 s.x q.x → ∃ c ∈ F.corners, Ahead s.x e c.x

/-- The surfaces of two balls meet in a circle (or a point). -/
def Meet (s n : SeedRec) : Prop := 0 < euclid 3 s.x n.x ∧ |s.size - n.size| ≤ euclid 3 s.x n.x ∧ euclid 3 s.x n.x ≤ s.size + n.size

/-- Direction from `n` to `s`. -/
def awayFrom (s n : SeedRec) : Nat → ℝ := fun k => s.x k - n.x k

/-- Every edge sphere has a neighbour, and one on the other side, and meets them. -/
def EdgesOK (F : Features) : Prop :=
  ∀ (i : Nat) (s : SeedRec), F.edges[i]? = some s → HasNext F i s none ∧
    ∀ n, NextTo F i s none n → Meet s n ∧ HasNext F i s (some (awayFrom s n)) ∧ ∀ m, NextTo F i s (some (awayFrom s n)) m → Meet s m

/-- Centre `c` and radius `r` of the circle in which two spheres meet, with orthonormal axes of its plane. -/
structure CircleFrame (s n : SeedRec) (c : Nat → ℝ) (r : ℝ) (e1 e2 : Nat → ℝ) : Prop where
  line : ∃ t, ∀ k, c k = s.x k + t * (n.x k - s.x k)
  radius : 0 ≤ r
  first : euclid 3 c s.x ^ 2 + r ^ 2 = s.size ^ 2
  second : euclid 3 c n.x ^ 2 + r ^ 2 = n.size ^ 2
  unit1 : dotN e1 e1 = 1
  unit2 : dotN e2 e2 = 1
  orth : dotN e1 e2 = 0
  plane1 : dotN e1 (awayFrom s n) = 0
  plane2 : dotN e2 (awayFrom s n) = 0

/-- `q` is one of the seeds nearest to `x`. -/
def NearestSeed (seeds : List SeedRec) (x : Nat → ℝ) (q : SeedRec) : Prop := q ∈ seeds ∧ ∀ p ∈ seeds, euclid 3 x q.x ≤ euclid 3 x p.x

/-- What happens to the circle of `s` and `n`, with candidates `ys`: the seed `o` is added, or none. -/
def CircleOutcome (seeds : List SeedRec) (F : Features) (s n : SeedRec) (ys : List (ℝ × ℝ)) (o : Option SeedRec) : Prop :=
  ∃ c r e1 e2, CircleFrame s n c r e1 e2 ∧
    ((∃ a, o = some a ∧ a.size = r ∧ euclid 3 a.x s.x = s.size ∧ euclid 3 a.x n.x = n.size ∧ OutsideOf a.x F.surface ∧
        (∃ y ∈ ys, a.x = fun k => c k + r * (y.1 * e1 k + y.2 * e2 k)) ∧
        (∃ q, NearestSeed seeds a.x q ∧ a.region = q.region ∧ q.region ≠ 0 ∧ 1e-10 ≤ euclid 3 a.x q.x) ∧
        (∀ y ∈ ys, ∀ x : Nat → ℝ, (x = fun k => c k + r * (y.1 * e1 k + y.2 * e2 k)) → OutsideOf x F.surface → (∀ p, NearestSeed seeds x p → p.region ≠ 0) →
          ∃ p q, NearestSeed seeds x p ∧ NearestSeed seeds a.x q ∧ euclid 3 x p.x ≤ euclid 3 a.x q.x) ∧
        ∀ l : List Nat, l.Nodup → (∀ i ∈ l, ∃ p, seeds[i]? = some p ∧ euclidSq 3 c p.x < (1 + 2e-6) * r ^ 2 ∧ ∀ d, d < 3 → |c d - p.x d| < r) → l.length ≤ 2) ∨
      (o = none ∧
        ((∃ l : List Nat, l.Nodup ∧ 3 ≤ l.length ∧ ∀ i ∈ l, ∃ p, seeds[i]? = some p ∧ euclidSq 3 c p.x < (1 + 2e-6) * r ^ 2) ∨
          ∀ y ∈ ys, ∀ x : Nat → ℝ, (x = fun k => c k + r * (y.1 * e1 k + y.2 * e2 k)) → OutsideOf x F.surface → ∃ p, NearestSeed seeds x p ∧ (p.region = 0 ∨ euclid 3 x p.x < 1e-10))))

/-! ## Vectors -/

theorem euclid3_sq (x y : Nat → ℝ) : euclid 3 x y ^ 2 = (x 0 - y 0) ^ 2 + (x 1 - y 1) ^ 2 + (x 2 - y 2) ^ 2 := by
  rw [euclid_sq]; simp [Finset.sum_range_succ]

theorem dotN_self (u : Nat → ℝ) : 0 ≤ dotN u u := by unfold dotN; nlinarith [mul_self_nonneg (u 0), mul_self_nonneg (u 1), mul_self_nonneg (u 2)]

theorem dotN_away (s n : SeedRec) : dotN (awayFrom s n) (awayFrom s n) = euclid 3 s.x n.x ^ 2 := by rw [euclid3_sq]; unfold dotN awayFrom; ring

theorem sqrt_away (s n : SeedRec) : Real.sqrt (dotN (awayFrom s n) (awayFrom s n)) = euclid 3 s.x n.x := by
  rw [dotN_away, Real.sqrt_sq (euclid_nonneg _ _ _)]

theorem unitN_dot {w : Nat → ℝ} (h : 0 < Real.sqrt (dotN w w)) : dotN (unitN w) (unitN w) = 1 := by
  have h2 := Real.sq_sqrt (dotN_self w)
  have : dotN (unitN w) (unitN w) = dotN w w / Real.sqrt (dotN w w) ^ 2 := by
    unfold unitN dotN; field_simp
  rw [this, h2, div_self]
  rw [← h2]; positivity

theorem unitN_dotN {w v : Nat → ℝ} : dotN (unitN w) v = dotN w v / Real.sqrt (dotN w w) := by unfold unitN dotN; ring

theorem dotN_comm (u v : Nat → ℝ) : dotN u v = dotN v u := by unfold dotN; ring

theorem ahead_unit {x p w : Nat → ℝ} (h : 0 < Real.sqrt (dotN w w)) : Ahead x (some (unitN w)) p ↔ Ahead x (some w) p := by
  unfold Ahead
  simp only [Option.some.injEq, forall_eq']
  rw [dotN_comm, unitN_dotN, dotN_comm w]
  constructor
  · intro h'
    by_contra hc
    push Not at hc
    exact absurd h' (not_le.2 (div_neg_of_neg_of_pos hc h))
  · intro h'; positivity

theorem circleDir_spec {eo : Nat → ℝ} (he : dotN eo eo = 1) {vs : List (Nat → ℝ)} {e1 : Nat → ℝ} (h : circleDir eo vs = some e1) : dotN e1 e1 = 1 ∧ dotN e1 eo = 0 := by
  induction vs with
  | nil => simp [circleDir] at h
  | cons v vs ih =>
    unfold circleDir at h
    simp only at h
    by_cases hn : Real.sqrt (dotN (fun k => v k - dotN v eo * eo k) (fun k => v k - dotN v eo * eo k)) < 0.001
    · rw [if_pos hn] at h; exact ih h
    · rw [if_neg hn] at h
      have hp : 0 < Real.sqrt (dotN (fun k => v k - dotN v eo * eo k) (fun k => v k - dotN v eo * eo k)) := lt_of_lt_of_le (by norm_num) (not_lt.1 hn)
      obtain rfl := Option.some.inj h
      refine ⟨unitN_dot hp, ?_⟩
      rw [unitN_dotN]
      have : dotN (fun k => v k - dotN v eo * eo k) eo = dotN v eo - dotN v eo * dotN eo eo := by unfold dotN; ring
      rw [this, he]; simp

/-- A direction that is accepted. -/
def UsefulDir (eo v : Nat → ℝ) : Prop := 0.001 ≤ Real.sqrt (dotN (fun k => v k - dotN v eo * eo k) (fun k => v k - dotN v eo * eo k))

theorem circleDir_total {eo : Nat → ℝ} {vs : List (Nat → ℝ)} (h : ∃ v ∈ vs, UsefulDir eo v) : ∃ e1, circleDir eo vs = some e1 := by
  induction vs with
  | nil => obtain ⟨v, hv, -⟩ := h; simp at hv
  | cons v vs ih =>
    unfold circleDir
    simp only
    by_cases hn : Real.sqrt (dotN (fun k => v k - dotN v eo * eo k) (fun k => v k - dotN v eo * eo k)) < 0.001
    · rw [if_pos hn]
      refine ih ?_
      obtain ⟨u, hu, hu2⟩ := h
      rcases List.mem_cons.1 hu with rfl | hu
      · exact absurd hu2 (not_le.2 hn)
      · exact ⟨u, hu, hu2⟩
    · rw [if_neg hn]; exact ⟨_, rfl⟩

theorem crossN_unit {u v : Nat → ℝ} (hu : dotN u u = 1) (hv : dotN v v = 1) (h : dotN v u = 0) : dotN (crossN u v) (crossN u v) = 1 := by
  have : dotN (crossN u v) (crossN u v) = dotN u u * dotN v v - dotN v u ^ 2 := by simp [dotN, crossN]; ring
  rw [this, hu, hv, h]; norm_num

theorem crossN_left (u v : Nat → ℝ) : dotN (crossN u v) u = 0 := by simp [dotN, crossN]; ring

theorem crossN_right (u v : Nat → ℝ) : dotN v (crossN u v) = 0 := by simp [dotN, crossN]; ring

/-! ## The circle -/

theorem circleOf_spec {s n : SeedRec} (hs : 0 ≤ s.size) (hn : 0 ≤ n.size) (h : Meet s n) {eo e1 : Nat → ℝ} (heo : eo = unitN (awayFrom s n)) (h1 : dotN e1 e1 = 1) (h2 : dotN e1 eo = 0) :
    ∃ c r, circleOf s n (euclid 3 s.x n.x) = some (c, r) ∧ CircleFrame s n c r e1 (crossN eo e1) := by
  obtain ⟨hd, hab, hsum⟩ := h
  set d := euclid 3 s.x n.x with hdd
  have hd2 : d ^ 2 = (s.x 0 - n.x 0) ^ 2 + (s.x 1 - n.x 1) ^ 2 + (s.x 2 - n.x 2) ^ 2 := euclid3_sq _ _
  set t := ((s.size * s.size - n.size * n.size + d * d) / (2 * d)) with ht
  have htd : t * (2 * d) = s.size * s.size - n.size * n.size + d * d := by rw [ht]; field_simp
  have hpos : 0 ≤ s.size * s.size - t * t := by
    have h4 : 0 ≤ (d ^ 2 - (s.size - n.size) ^ 2) := by nlinarith [sq_abs (s.size - n.size), abs_nonneg (s.size - n.size)]
    have h5 : 0 ≤ ((s.size + n.size) ^ 2 - d ^ 2) := by nlinarith
    have h6 : (s.size * s.size - t * t) * (2 * d) ^ 2 = (d ^ 2 - (s.size - n.size) ^ 2) * ((s.size + n.size) ^ 2 - d ^ 2) := by
      have : (s.size * s.size - t * t) * (2 * d) ^ 2 = s.size * s.size * (2 * d) ^ 2 - (t * (2 * d)) ^ 2 := by ring
      rw [this, htd]; ring
    have h7 := mul_nonneg h4 h5
    rw [← h6] at h7
    exact nonneg_of_mul_nonneg_left h7 (by positivity)
  have hsq := Real.sq_sqrt hpos
  have heo1 : dotN eo eo = 1 := by rw [heo]; exact unitN_dot (by rw [sqrt_away]; exact hd)
  have hperp : ∀ v, dotN v eo = 0 → dotN v (awayFrom s n) = 0 := by
    intro v hv
    rw [heo, dotN_comm, unitN_dotN, sqrt_away, div_eq_zero_iff] at hv
    rcases hv with hv | hv
    · rw [dotN_comm]; exact hv
    · exact absurd hv hd.ne'
  refine ⟨_, _, by unfold circleOf; simp only; rw [if_neg (by rintro (h | h); exact hd.ne' h; exact absurd hpos (not_le.2 h))],
    ⟨t / d, fun k => rfl⟩, Real.sqrt_nonneg _, ?_, ?_, h1, crossN_unit heo1 h1 h2, crossN_right _ _, hperp _ h2, hperp _ (crossN_left _ _)⟩
  · rw [← ht, hsq, euclid3_sq]
    have : (s.x 0 + t / d * (n.x 0 - s.x 0) - s.x 0) ^ 2 + (s.x 1 + t / d * (n.x 1 - s.x 1) - s.x 1) ^ 2 + (s.x 2 + t / d * (n.x 2 - s.x 2) - s.x 2) ^ 2 = (t / d) ^ 2 * d ^ 2 := by rw [hd2]; ring
    rw [this, div_pow, div_mul_cancel₀ _ (by positivity)]; ring
  · rw [← ht, hsq, euclid3_sq]
    have : (s.x 0 + t / d * (n.x 0 - s.x 0) - n.x 0) ^ 2 + (s.x 1 + t / d * (n.x 1 - s.x 1) - n.x 1) ^ 2 + (s.x 2 + t / d * (n.x 2 - s.x 2) - n.x 2) ^ 2 = (1 - t / d) ^ 2 * d ^ 2 := by rw [hd2]; ring
    rw [this, ← mul_pow, sub_mul, div_mul_cancel₀ _ hd.ne']
    linear_combination -htd

theorem CircleFrame.on {s n : SeedRec} {c e1 e2 : Nat → ℝ} {r : ℝ} (h : CircleFrame s n c r e1 e2) (hs : 0 ≤ s.size) (hn : 0 ≤ n.size) {y : ℝ × ℝ} (hy : y.1 ^ 2 + y.2 ^ 2 = 1) :
    euclid 3 (circlePoint c r e1 e2 y) s.x = s.size ∧ euclid 3 (circlePoint c r e1 e2 y) n.x = n.size := by
  obtain ⟨t, ht⟩ := h.line
  have f1 := h.first
  have f2 := h.second
  have u1 := h.unit1
  have u2 := h.unit2
  have o := h.orth
  have p1 := h.plane1
  have p2 := h.plane2
  rw [euclid3_sq] at f1 f2
  unfold dotN awayFrom at *
  constructor
  · rw [← abs_of_nonneg (euclid_nonneg 3 _ s.x), ← abs_of_nonneg hs, ← sq_eq_sq_iff_abs_eq_abs, euclid3_sq, ← f1]
    simp only [circlePoint, ht]
    linear_combination r ^ 2 * y.1 ^ 2 * u1 + r ^ 2 * y.2 ^ 2 * u2 + 2 * r ^ 2 * y.1 * y.2 * o + r ^ 2 * hy - 2 * t * r * y.1 * p1 - 2 * t * r * y.2 * p2
  · rw [← abs_of_nonneg (euclid_nonneg 3 _ n.x), ← abs_of_nonneg hn, ← sq_eq_sq_iff_abs_eq_abs, euclid3_sq, ← f2]
    simp only [circlePoint, ht]
    linear_combination r ^ 2 * y.1 ^ 2 * u1 + r ^ 2 * y.2 ^ 2 * u2 + 2 * r ^ 2 * y.1 * y.2 * o + r ^ 2 * hy + 2 * (1 - t) * r * y.1 * p1 + 2 * (1 - t) * r * y.2 * p2

/-! ## The next sphere -/

theorem aheadOf_iff {x p : Nat → ℝ} {e : Option (Nat → ℝ)} : aheadOf x e p = true ↔ Ahead x e p := by
  cases e with
  | none => simp [aheadOf, Ahead]
  | some v => simp [aheadOf, Ahead]

theorem closestAhead_spec {T : MTree} {xs : List SeedRec} (h : T.Holds xs) (skip : Option Nat) (x : Nat → ℝ) (e : Option (Nat → ℝ)) :
    (∃ s, closestAhead T xs skip x e = some (s, euclid 3 x s.x) ∧ NearestIn (fun j q => skip ≠ some j ∧ Ahead x e q.x) xs x s) ∨
      (closestAhead T xs skip x e = none ∧ ∀ (j : Nat) (q : SeedRec), xs[j]? = some q → ¬ (skip ≠ some j ∧ Ahead x e q.x)) := by
  have hE : ∀ (i o : Nat) (s : SeedRec), T.old i = some o → T.P.pts i = s.x →
      ((decide (skip = none ∨ T.old i ≠ skip) && aheadOf x e (T.P.pts i)) = true ↔ (skip ≠ some o ∧ Ahead x e s.x)) := by
    intro i o s h1 h2
    rw [Bool.and_eq_true, decide_eq_true_iff, aheadOf_iff, h1, h2]
    refine and_congr_left fun _ => ?_
    cases skip with
    | none => simp
    | some k => simp [eq_comm]
  have hall : ∀ (j : Nat) (q : SeedRec), xs[j]? = some q → ∃ i, i < xs.length ∧ T.old i = some j ∧ T.P.pts i = q.x := by
    intro j q hj
    obtain ⟨hk, -⟩ := List.getElem?_eq_some_iff.1 hj
    obtain ⟨i, hi, hi2⟩ := h.onto j hk
    obtain ⟨o', s', h5, h6, h7⟩ := h.old i hi
    have : o' = j := Option.some.inj (h5.symm.trans hi2)
    subst this
    have : s' = q := Option.some.inj (h6.symm.trans hj)
    subst this
    exact ⟨i, hi, hi2, h7⟩
  obtain ⟨c, b, ec, h1 | h1⟩ := C06_closest_is_exhaustive T.P T.ln h.tree (fun i => decide (skip = none ∨ T.old i ≠ skip) && aheadOf x e (T.P.pts i)) x true ⊤ le_top
  · obtain ⟨hc, hel, hb, -, hmin⟩ := h1
    rw [h.num] at hc
    obtain ⟨o, s, h2, h3, h4⟩ := h.old c hc
    rw [h.dim, h4] at hb
    refine Or.inl ⟨s, ?_, o, h3, (hE c o s h2 h4).1 hel, ?_⟩
    · unfold closestAhead
      rw [ec, hb]
      simp only [h2, h3]
      rw [if_pos (by rw [h.num]; exact hc)]
    · intro k p hk hp
      obtain ⟨i, hi, hi2, hi3⟩ := hall k p hk
      have := hmin i (by rw [h.num]; exact hi) ((hE i k p hi2 hi3).2 hp)
      rw [h.dim, h4, hi3] at this
      exact this
  · obtain ⟨-, hb, hno⟩ := h1
    refine Or.inr ⟨?_, ?_⟩
    · unfold closestAhead
      rw [ec, hb]
    · intro j q hj hq
      obtain ⟨i, hi, hi2, hi3⟩ := hall j q hj
      have := hno i (by rw [h.num]; exact hi) ((hE i j q hi2 hi3).2 hq)
      simp at this

theorem otherEdge_eq (i : Nat) (s : SeedRec) (e : Option (Nat → ℝ)) : (fun j q => some i ≠ some j ∧ Ahead s.x e q.x) = OtherEdge i s e := by
  funext j q
  simp [OtherEdge, eq_comm]

theorem nextSphere_spec {FT : FeatureTrees} {F : Features} (hFT : FT.Hold F) {i : Nat} {s : SeedRec} (hi : F.edges[i]? = some s) {e : Option (Nat → ℝ)} (h : HasNext F i s e) :
    ∃ n, nextSphere FT F i s e = some (n, euclid 3 s.x n.x) ∧ NextTo F i s e n := by
  unfold nextSphere
  rcases hFT.edges with ⟨h0, -⟩ | ⟨T, eT, hT⟩
  · rw [h0] at hi; simp at hi
  rw [eT]
  simp only
  rcases closestAhead_spec hT (some i) s.x e with ⟨q, eq, hq⟩ | ⟨-, hno⟩
  · rw [eq]
    simp only
    rw [otherEdge_eq] at hq
    by_cases hov : euclid 3 s.x q.x < s.size + q.size
    · rw [if_pos hov]
      exact ⟨q, rfl, Or.inl ⟨hq, hov⟩⟩
    · rw [if_neg hov]
      obtain ⟨c, hc, hc2⟩ := h.2 q hq (not_lt.1 hov)
      rcases hFT.corners with ⟨h0, -⟩ | ⟨T', eT', hT'⟩
      · rw [h0] at hc; simp at hc
      rw [eT']
      simp only
      rcases closestAhead_spec hT' none s.x e with ⟨m, em, hm⟩ | ⟨-, hno⟩
      · refine ⟨m, em, Or.inr ⟨⟨q, hq, not_lt.1 hov⟩, ?_⟩⟩
        simpa using hm
      · obtain ⟨k, hk⟩ := List.getElem?_of_mem hc
        exact absurd ⟨by simp, hc2⟩ (hno k c hk)
  · obtain ⟨j, q, hj, hj2⟩ := h.1
    refine absurd ?_ (hno j q hj)
    rw [← otherEdge_eq] at hj2
    exact hj2

/-! ## The candidates -/

/-- What is known of the best candidate among `ys`. -/
structure BestOf (seeds : List SeedRec) (F : Features) (pt : ℝ × ℝ → Nat → ℝ) (ys : List (ℝ × ℝ)) (b : ℝ × Option ((Nat → ℝ) × Nat)) : Prop where
  nonneg : 0 ≤ b.1
  none : b.2 = none → b.1 = 0
  some : ∀ x g, b.2 = some (x, g) → ∃ y ∈ ys, x = pt y ∧ OutsideOf x F.surface ∧ ∃ q, NearestSeed seeds x q ∧ g = q.region ∧ q.region ≠ 0 ∧ b.1 = euclid 3 x q.x
  best : ∀ y ∈ ys, OutsideOf (pt y) F.surface → ∃ p, NearestSeed seeds (pt y) p ∧ (p.region = 0 ∨ euclid 3 (pt y) p.x ≤ b.1)

theorem bestCandidate_spec {T : MTree} {seeds : List SeedRec} {FT : FeatureTrees} {F : Features} {L : ℝ} (hT : T.Holds seeds) (hFT : FT.Hold F) (hF : F.OK L) (pt : ℝ × ℝ → Nat → ℝ)
    (ys zs : List (ℝ × ℝ)) (b : ℝ × Option ((Nat → ℝ) × Nat)) (hb : BestOf seeds F pt zs b) :
    ∃ b', bestCandidate T seeds FT F L pt ys b = some b' ∧ BestOf seeds F pt (zs ++ ys) b' := by
  induction ys generalizing zs b with
  | nil => exact ⟨b, rfl, by simpa using hb⟩
  | cons y ys ih =>
    obtain ⟨o, eo, ho⟩ := outsideAll_spec hF.L0 hF.L1 hFT.surface hF.surface (pt y)
    unfold bestCandidate
    rw [eo]
    have hmono : ∀ b'' : ℝ × Option ((Nat → ℝ) × Nat), b.1 ≤ b''.1 → (b''.2 = Option.none → b''.1 = 0) →
        (∀ x g, b''.2 = Option.some (x, g) → ∃ z ∈ zs ++ [y], x = pt z ∧ OutsideOf x F.surface ∧ ∃ q, NearestSeed seeds x q ∧ g = q.region ∧ q.region ≠ 0 ∧ b''.1 = euclid 3 x q.x) →
        (OutsideOf (pt y) F.surface → ∃ p, NearestSeed seeds (pt y) p ∧ (p.region = 0 ∨ euclid 3 (pt y) p.x ≤ b''.1)) → BestOf seeds F pt (zs ++ [y]) b'' := by
      intro b'' h1 h2 h3 h4
      refine ⟨hb.nonneg.trans h1, h2, h3, ?_⟩
      intro z hz hz2
      rcases List.mem_append.1 hz with hz | hz
      · obtain ⟨p, hp, hp2⟩ := hb.best z hz hz2
        exact ⟨p, hp, hp2.imp id fun h => h.trans h1⟩
      · simp only [List.mem_singleton] at hz
        subst hz
        exact h4 hz2
    have hold : ∀ x g, b.2 = Option.some (x, g) → ∃ z ∈ zs ++ [y], x = pt z ∧ OutsideOf x F.surface ∧ ∃ q, NearestSeed seeds x q ∧ g = q.region ∧ q.region ≠ 0 ∧ b.1 = euclid 3 x q.x := by
      intro x g hx
      obtain ⟨z, hz, hz2⟩ := hb.some x g hx
      exact ⟨z, by simp [hz], hz2⟩
    cases o with
    | false =>
      simp only
      have := ih (zs ++ [y]) b (hmono b (le_refl _) hb.none hold fun h => absurd (ho.2 h) (by simp))
      simpa using this
    | true =>
      obtain ⟨q, k, eq, hq, hmin⟩ := closestRec_spec hT (pt y)
      have hqn : NearestSeed seeds (pt y) q := ⟨List.mem_of_getElem? hq, hmin⟩
      simp only [eq]
      by_cases h0 : q.region = 0
      · rw [if_pos h0]
        have := ih (zs ++ [y]) b (hmono b (le_refl _) hb.none hold fun _ => ⟨q, hqn, Or.inl h0⟩)
        simpa using this
      · rw [if_neg h0]
        by_cases hlt : b.1 < euclid 3 (pt y) q.x
        · rw [if_pos hlt]
          have := ih (zs ++ [y]) (euclid 3 (pt y) q.x, Option.some (pt y, q.region)) (hmono _ hlt.le (by simp) ?_ fun _ => ⟨q, hqn, Or.inr (le_refl _)⟩)
          · simpa using this
          · intro x g hx
            simp only [Option.some.injEq, Prod.mk.injEq] at hx
            obtain ⟨rfl, rfl⟩ := hx
            exact ⟨y, by simp, rfl, ho.1 rfl, q, hqn, rfl, h0, rfl⟩
        · rw [if_neg hlt]
          have := ih (zs ++ [y]) b (hmono b (le_refl _) hb.none hold fun _ => ⟨q, hqn, Or.inr (not_lt.1 hlt)⟩)
          simpa using this

theorem nearestSeed_dist {seeds : List SeedRec} {x : Nat → ℝ} {p q : SeedRec} (hp : NearestSeed seeds x p) (hq : NearestSeed seeds x q) : euclid 3 x p.x = euclid 3 x q.x :=
  le_antisymm (hp.2 q hq.1) (hq.2 p hp.1)

/-! ## One circle -/

/-- Draws are useful: some direction is not along the edge, and candidates are points of the unit circle. -/
structure DrawsOK (s n : SeedRec) (vs : List (Nat → ℝ)) (ys : List (ℝ × ℝ)) : Prop where
  dir : ∃ v ∈ vs, UsefulDir (unitN (awayFrom s n)) v
  unit : ∀ y ∈ ys, y.1 ^ 2 + y.2 ^ 2 = 1

theorem edgeSeed_spec {T : MTree} {seeds : List SeedRec} {FT : FeatureTrees} {F : Features} {L : ℝ} (hT : T.Holds seeds) (hFT : FT.Hold F) (hF : F.OK L) {i : Nat} {s : SeedRec}
    (hi : F.edges[i]? = some s) {e : Option (Nat → ℝ)} (h : HasNext F i s e) (hm : ∀ n, NextTo F i s e n → Meet s n) {vs : List (Nat → ℝ)} {ys : List (ℝ × ℝ)}
    (hd : ∀ n, NextTo F i s e n → DrawsOK s n vs ys) :
    ∃ n o, edgeSeed T seeds FT F L i s e vs ys = some (unitN (awayFrom s n), o) ∧ NextTo F i s e n ∧ CircleOutcome seeds F s n ys o := by
  obtain ⟨n, en, hn⟩ := nextSphere_spec hFT hi h
  have hM := hm n hn
  have hs0 : 0 ≤ s.size := hF.edges.nonneg s (List.mem_of_getElem? hi)
  have hn0 : 0 ≤ n.size := by
    rcases hn with ⟨⟨j, hj, -⟩, -⟩ | ⟨-, j, hj, -⟩
    · exact hF.edges.nonneg n (List.mem_of_getElem? hj)
    · exact hF.corners.nonneg n (List.mem_of_getElem? hj)
  have heo : dotN (unitN (awayFrom s n)) (unitN (awayFrom s n)) = 1 := unitN_dot (by rw [sqrt_away]; exact hM.1)
  obtain ⟨e1, ee1⟩ := circleDir_total (hd n hn).dir
  obtain ⟨u1, u2⟩ := circleDir_spec heo ee1
  obtain ⟨c, r, ec, hC⟩ := circleOf_spec hs0 hn0 hM rfl u1 u2
  obtain ⟨l, el, hl0, hl1, hl2⟩ := nearRecs_boundary hT c r
  have hcirc : (fun k => s.x k - n.x k) = awayFrom s n := rfl
  unfold edgeSeed
  rw [en]
  simp only [hcirc, ee1, ec, el]
  by_cases hlen : 2 < l.length
  · rw [if_pos hlen]
    exact ⟨n, none, rfl, hn, c, r, e1, _, hC, Or.inr ⟨rfl, Or.inl ⟨l, hl0, hlen, hl1⟩⟩⟩
  · rw [if_neg hlen]
    obtain ⟨⟨hb, ob⟩, eb, hB⟩ := bestCandidate_spec hT hFT hF (circlePoint c r e1 (crossN (unitN (awayFrom s n)) e1)) ys [] (0, none)
      ⟨le_refl _, fun _ => rfl, by simp, by simp⟩
    rw [List.nil_append] at hB
    rw [eb]
    cases ob with
    | none =>
      simp only
      refine ⟨n, none, rfl, hn, c, r, e1, _, hC, Or.inr ⟨rfl, Or.inr ?_⟩⟩
      intro y hy x hx hx2
      have hx' : x = circlePoint c r e1 (crossN (unitN (awayFrom s n)) e1) y := hx
      subst hx'
      obtain ⟨p, hp, hp2⟩ := hB.best y hy hx2
      refine ⟨p, hp, hp2.imp id fun h => ?_⟩
      have := hB.none rfl
      simp only at this h
      rw [this] at h
      exact lt_of_le_of_lt h (by norm_num)
    | some xg =>
      obtain ⟨x, g⟩ := xg
      simp only
      by_cases hh : hb < 1e-10
      · rw [if_pos hh]
        refine ⟨n, none, rfl, hn, c, r, e1, _, hC, Or.inr ⟨rfl, Or.inr ?_⟩⟩
        intro y hy x' hx hx2
        have hx' : x' = circlePoint c r e1 (crossN (unitN (awayFrom s n)) e1) y := hx
        subst hx'
        obtain ⟨p, hp, hp2⟩ := hB.best y hy hx2
        exact ⟨p, hp, hp2.imp id fun h => lt_of_le_of_lt h hh⟩
      · rw [if_neg hh]
        obtain ⟨y, hy, hxy, hout, q, hq, hg, hq0, hbq⟩ := hB.some x g rfl
        simp only at hbq
        have hon := hC.on hs0 hn0 ((hd n hn).unit y hy)
        rw [← hxy] at hon
        refine ⟨n, _, rfl, hn, c, r, e1, _, hC, Or.inl ⟨_, rfl, rfl, hon.1, hon.2, hout, ⟨y, hy, hxy⟩, ⟨q, hq, hg, hq0, by rw [← hbq]; exact not_lt.1 hh⟩, ?_, ?_⟩⟩
        · intro z hz x' hx hx2 hreg
          have hx' : x' = circlePoint c r e1 (crossN (unitN (awayFrom s n)) e1) z := hx
          subst hx'
          obtain ⟨p, hp, hp2⟩ := hB.best z hz hx2
          refine ⟨p, q, hp, hq, ?_⟩
          rw [← hbq]
          exact hp2.resolve_left (hreg p hp)
        · intro l' hnd hl'
          have hsub : l' ⊆ l := fun k hk => by
            obtain ⟨p, hp, hp2, hp3⟩ := hl' k hk
            exact hl2 k p hp hp2 hp3
          exact ((List.subperm_of_subset hnd hsub).length_le).trans (not_lt.1 hlen)

/-! ## All edge spheres -/

/-- What happens at edge sphere `i`: the seeds added on the circles with its two neighbours. -/
def EdgeOutcome (seeds : List SeedRec) (F : Features) (ys : Nat → Bool → List (ℝ × ℝ)) (i : Nat) (s : SeedRec) (p : Option SeedRec × Option SeedRec) : Prop :=
  ∃ n m, NextTo F i s none n ∧ CircleOutcome seeds F s n (ys i false) p.1 ∧ NextTo F i s (some (awayFrom s n)) m ∧ CircleOutcome seeds F s m (ys i true) p.2

/-- All draws are useful. -/
def AllDrawsOK (F : Features) (vs : Nat → Bool → List (Nat → ℝ)) (ys : Nat → Bool → List (ℝ × ℝ)) : Prop :=
  ∀ (i : Nat) (s : SeedRec), F.edges[i]? = some s → ∀ n, NextTo F i s none n → DrawsOK s n (vs i false) (ys i false) ∧ ∀ m, NextTo F i s (some (awayFrom s n)) m → DrawsOK s m (vs i true) (ys i true)

theorem otherEdge_unit {i : Nat} {s n : SeedRec} (h : Meet s n) : OtherEdge i s (some (unitN (awayFrom s n))) = OtherEdge i s (some (awayFrom s n)) := by
  funext j q
  unfold OtherEdge
  rw [ahead_unit (by rw [sqrt_away]; exact h.1)]

theorem nextTo_unit {F : Features} {i : Nat} {s n m : SeedRec} (h : Meet s n) : NextTo F i s (some (unitN (awayFrom s n))) m ↔ NextTo F i s (some (awayFrom s n)) m := by
  unfold NextTo
  rw [otherEdge_unit h]
  have : (fun (_ : Nat) (q : SeedRec) => Ahead s.x (some (unitN (awayFrom s n))) q.x) = fun _ q => Ahead s.x (some (awayFrom s n)) q.x := by
    funext _ q
    rw [ahead_unit (by rw [sqrt_away]; exact h.1)]
  rw [this]

theorem hasNext_unit {F : Features} {i : Nat} {s n : SeedRec} (h : Meet s n) : HasNext F i s (some (unitN (awayFrom s n))) ↔ HasNext F i s (some (awayFrom s n)) := by
  unfold HasNext
  rw [otherEdge_unit h]
  have : ∀ q : SeedRec, Ahead s.x (some (unitN (awayFrom s n))) q.x ↔ Ahead s.x (some (awayFrom s n)) q.x := fun q => ahead_unit (by rw [sqrt_away]; exact h.1)
  simp only [this]

theorem edgeSeeds_spec {T : MTree} {seeds : List SeedRec} {FT : FeatureTrees} {F : Features} {L : ℝ} (hT : T.Holds seeds) (hFT : FT.Hold F) (hF : F.OK L) (hE : EdgesOK F)
    {vs : Nat → Bool → List (Nat → ℝ)} {ys : Nat → Bool → List (ℝ × ℝ)} (hd : AllDrawsOK F vs ys) (l : List SeedRec) (i : Nat) (hl : ∀ (k : Nat) (s : SeedRec), l[k]? = some s → F.edges[i + k]? = some s) :
    ∃ os : List (Option SeedRec × Option SeedRec), os.length = l.length ∧ edgeSeeds T seeds FT F L vs ys l i = some (os.flatMap fun p => p.1.toList ++ p.2.toList) ∧
      ∀ (k : Nat) (s : SeedRec) (p : Option SeedRec × Option SeedRec), l[k]? = some s → os[k]? = some p → EdgeOutcome seeds F ys (i + k) s p := by
  induction l generalizing i with
  | nil => exact ⟨[], rfl, rfl, by simp⟩
  | cons s l ih =>
    have hi : F.edges[i]? = some s := by simpa using hl 0 s (by simp)
    obtain ⟨h1, h2⟩ := hE i s hi
    obtain ⟨n, a, ea, hn, ha⟩ := edgeSeed_spec hT hFT hF hi h1 (fun n hn => (h2 n hn).1) (fun n hn => (hd i s hi n hn).1)
    obtain ⟨hM, h3, h4⟩ := h2 n hn
    obtain ⟨m, b, eb, hm, hb⟩ := edgeSeed_spec hT hFT hF hi (e := some (unitN (awayFrom s n))) (vs := vs i true) (ys := ys i true) ((hasNext_unit hM).2 h3)
      (fun m hm => h4 m ((nextTo_unit hM).1 hm)) (fun m hm => (hd i s hi n hn).2 m ((nextTo_unit hM).1 hm))
    obtain ⟨os, ho, eo, hos⟩ := ih (i + 1) (fun k q hk => by
      have := hl (k + 1) q (by simpa using hk)
      rw [show i + (k + 1) = i + 1 + k by omega] at this
      exact this)
    refine ⟨(a, b) :: os, by simp [ho], ?_, ?_⟩
    · unfold edgeSeeds
      rw [ea]
      simp only
      rw [eb]
      simp only [eo]
      simp
    · intro k q p hk hp
      cases k with
      | zero =>
        simp only [List.length_cons, Nat.zero_lt_succ, List.getElem?_eq_getElem, List.getElem_cons_zero, Option.some.injEq] at hk hp
        subst hk hp
        exact ⟨n, m, hn, ha, (nextTo_unit hM).1 hm, hb⟩
      | succ k =>
        have := hos k q p (by simpa using hk) (by simpa using hp)
        rw [show i + 1 + k = i + (k + 1) by omega] at this
        exact this

theorem appendSeeds_spec (xs added : List SeedRec) : appendSeeds xs added = some (xs ++ added) := by
  unfold appendSeeds
  by_cases h : 0 < added.length
  · rw [if_pos h]
    obtain ⟨b, eb, hb1, -, hb3⟩ := copyInto_spec xs 0 (SeedBuf.new (xs.length + added.length)) (by simp [SeedBuf.new])
    have hcap : b.cap = xs.length + added.length := by rw [hb1]; rfl
    obtain ⟨b', eb', hb1', h4, h5⟩ := copyInto_spec added xs.length b (by rw [hcap])
    rw [eb]
    simp only
    rw [eb']
    simp only
    rw [← List.length_append]
    refine take_spec b' (xs ++ added) (by rw [hb1', hcap]; simp) ?_
    intro k r hr
    by_cases hk : k < xs.length
    · rw [List.getElem?_append_left hk] at hr
      rw [h4 k hk]
      have := hb3 k r hr
      simpa using this
    · rw [List.getElem?_append_right (by omega)] at hr
      have := h5 _ r hr
      rw [show xs.length + (k - xs.length) = k by omega] at this
      exact this
  · rw [if_neg h]
    have : added = [] := List.length_eq_zero_iff.1 (by omega)
    simp [this]

theorem holds_resized {T : MTree} {xs ys : List SeedRec} (h : T.Holds xs) (hl : ys.length = xs.length) (hx : ∀ (i : Nat) (a b : SeedRec), xs[i]? = some a → ys[i]? = some b → b.x = a.x) : T.Holds ys := by
  refine ⟨h.tree, h.dim, by rw [h.num, hl], ?_, by rw [hl]; exact h.onto, by rw [hl]; exact h.inj⟩
  rw [hl]
  intro i hi
  obtain ⟨o, s, h1, h2, h3⟩ := h.old i hi
  obtain ⟨ho, -⟩ := List.getElem?_eq_some_iff.1 h2
  have hy : ys[o]? = some ys[o] := List.getElem?_eq_getElem (by omega)
  exact ⟨o, ys[o], h1, hy, by rw [h3, hx o s _ h2 hy]⟩

/-- **C87, what holds.** If every edge sphere has neighbours on both sides which it meets, and for useful random draws, the stage keeps all seeds (no size grows, or falls below what the sizes demand) and appends the seeds added at
each edge sphere, at most one per neighbour: on the circle in which the sphere and that neighbour meet, with the radius of the circle as size, outside all surface spheres, with the region of a
nearest seed, which is not 0, and it is the candidate furthest from the seeds.  None is added if three seeds are around the circle already, or if no candidate will do.
Missing: the corner and edge spheres other than the two may contain the new seed (`C87_inside_corner_false`), and the new seeds are not compared with each other. -/
theorem C87_edge_seeds_partial (seeds : List SeedRec) (F : Features) (L : ℝ) (hF : F.OK L) (hc : F.corners.length ≤ F.surface.length) (hz : F.sizing.length ≤ F.surface.length) (hne : seeds ≠ [])
    (h0 : ∀ a ∈ seeds, 0 ≤ a.size) (hE : EdgesOK F) (vs : Nat → Bool → List (Nat → ℝ)) (ys : Nat → Bool → List (ℝ × ℝ)) (hd : AllDrawsOK F vs ys) :
    ∃ (xs : List SeedRec) (os : List (Option SeedRec × Option SeedRec)) (N : Nat),
      (∀ fuel, N ≤ fuel → ensureDelaunay seeds F L fuel vs ys = some (xs ++ os.flatMap fun p => p.1.toList ++ p.2.toList)) ∧
      xs.length = seeds.length ∧ (∀ (i : Nat) (a b : SeedRec), seeds[i]? = some a → xs[i]? = some b → b.x = a.x ∧ b.region = a.region ∧ b.size ≤ a.size ∧ ∃ c ∈ seeds, c.size + L * euclid 3 a.x c.x ≤ b.size) ∧
      os.length = F.edges.length ∧
      ∀ (i : Nat) (s : SeedRec) (p : Option SeedRec × Option SeedRec), F.edges[i]? = some s → os[i]? = some p →
        ∃ n m, NextTo F i s none n ∧ CircleOutcome xs F s n (ys i false) p.1 ∧ NextTo F i s (some (awayFrom s n)) m ∧ CircleOutcome xs F s m (ys i true) p.2 := by
  obtain ⟨T, eT, hT⟩ := meshTree_spec hne (le_refl seeds.length)
  obtain ⟨FT, eF, hFT⟩ := C62_buffers_partial F hc hz
  obtain ⟨xs, N, hN, hl, hsame, -, -⟩ := C74_mesher_lipschitz_partial L hF.L0 T seeds hT h0
  have hX := holds_resized hT hl fun i a b ha hb => (hsame i a b ha hb).1
  obtain ⟨os, ho, eo, hos⟩ := edgeSeeds_spec hX hFT hF hE hd F.edges 0 (fun k s hk => by simpa using hk)
  refine ⟨xs, os, N, ?_, hl, fun i a b ha hb => ?_, ho, fun i s p hi hp => ?_⟩
  · intro fuel hf
    unfold ensureDelaunay
    rw [eT, eF]
    simp only
    rw [hN fuel hf]
    simp only
    rw [eo]
    simp only
    exact appendSeeds_spec _ _
  · exact hsame i a b ha hb
  · have := hos i s p hi hp
    rw [Nat.zero_add] at this
    exact this

/-! ## Where it is undefined -/

theorem featureTrees_hold {F : Features} {FT : FeatureTrees} (h : featureTrees F = some FT) : FT.Hold F := by
  unfold featureTrees at h
  have key : ∀ {alloc : Nat} {xs : List SeedRec} {o : Option MTree}, guardedTree alloc xs = some o → TreeFor o xs := by
    intro alloc xs o ho
    by_cases hl : xs.length ≤ alloc
    · obtain ⟨b, eb, hb⟩ := guardedTree_spec.1 hl
      rw [eb] at ho
      obtain rfl := Option.some.inj ho
      exact hb
    · rw [guardedTree_spec.2 (by omega)] at ho
      simp at ho
  split at h
  · next h1 h2 h3 h4 =>
    obtain rfl := Option.some.inj h
    exact ⟨key h1, key h2, key h3, key h4⟩
  · simp at h

theorem nextSphere_next {FT : FeatureTrees} {F : Features} (hFT : FT.Hold F) {i : Nat} {s n : SeedRec} {d : ℝ} {e : Option (Nat → ℝ)} (h : nextSphere FT F i s e = some (n, d)) :
    NextTo F i s e n ∧ ∃ (j : Nat) (q : SeedRec), F.edges[j]? = some q ∧ OtherEdge i s e j q := by
  unfold nextSphere at h
  rcases hFT.edges with ⟨-, e0⟩ | ⟨T, eT, hT⟩
  · rw [e0] at h; simp at h
  rw [eT] at h
  simp only at h
  rcases closestAhead_spec hT (some i) s.x e with ⟨q, eq, hq⟩ | ⟨e0, -⟩
  · rw [eq] at h
    simp only at h
    rw [otherEdge_eq] at hq
    obtain ⟨j, hj, hj2, -⟩ := id hq
    refine ⟨?_, j, q, hj, hj2⟩
    by_cases hov : euclid 3 s.x q.x < s.size + q.size
    · rw [if_pos hov] at h
      simp only [Option.some.injEq, Prod.mk.injEq] at h
      obtain ⟨rfl, -⟩ := h
      exact Or.inl ⟨hq, hov⟩
    · rw [if_neg hov] at h
      rcases hFT.corners with ⟨-, e0⟩ | ⟨T', eT', hT'⟩
      · rw [e0] at h; simp at h
      rw [eT'] at h
      simp only at h
      rcases closestAhead_spec hT' none s.x e with ⟨m, em, hm⟩ | ⟨e0, -⟩
      · rw [em] at h
        simp only [Option.some.injEq, Prod.mk.injEq] at h
        obtain ⟨rfl, -⟩ := h
        exact Or.inr ⟨⟨q, hq, not_lt.1 hov⟩, by simpa using hm⟩
      · rw [e0] at h; simp at h
  · rw [e0] at h; simp at h

theorem edgeSeed_next {T : MTree} {seeds : List SeedRec} {FT : FeatureTrees} {F : Features} {L : ℝ} (hFT : FT.Hold F) {i : Nat} {s : SeedRec} {e : Option (Nat → ℝ)} {vs : List (Nat → ℝ)} {ys : List (ℝ × ℝ)}
    {r : (Nat → ℝ) × Option SeedRec} (h : edgeSeed T seeds FT F L i s e vs ys = some r) :
    (∃ (j : Nat) (q : SeedRec), F.edges[j]? = some q ∧ OtherEdge i s e j q) ∧ ∃ n, NextTo F i s e n ∧ r.1 = unitN (awayFrom s n) := by
  unfold edgeSeed at h
  cases en : nextSphere FT F i s e with
  | none => rw [en] at h; simp at h
  | some nd =>
    obtain ⟨n, d⟩ := nd
    obtain ⟨h1, h2⟩ := nextSphere_next hFT en
    refine ⟨h2, n, h1, ?_⟩
    rw [en] at h
    simp only at h
    split at h
    · split at h
      · simp at h
      · split_ifs at h
        · obtain rfl := Option.some.inj h; rfl
        · split at h
          · simp at h
          · obtain rfl := Option.some.inj h; rfl
          · obtain rfl := Option.some.inj h; rfl
    · simp at h

/-- A run that ends found neighbours on both sides of the first edge sphere. -/
theorem ensureDelaunay_neighbours {seeds : List SeedRec} {F : Features} {L : ℝ} {fuel : Nat} {vs : Nat → Bool → List (Nat → ℝ)} {ys : Nat → Bool → List (ℝ × ℝ)} {s : SeedRec} {out : List SeedRec}
    (hs : F.edges[0]? = some s) (h : ensureDelaunay seeds F L fuel vs ys = some out) :
    (∃ (j : Nat) (q : SeedRec), F.edges[j]? = some q ∧ OtherEdge 0 s none j q) ∧
      ∃ n, NextTo F 0 s none n ∧ ∃ (j : Nat) (q : SeedRec), F.edges[j]? = some q ∧ OtherEdge 0 s (some (unitN (awayFrom s n))) j q := by
  unfold ensureDelaunay at h
  cases eT : meshTree seeds.length seeds with
  | none => rw [eT] at h; simp at h
  | some T =>
    cases eF : featureTrees F with
    | none => rw [eT, eF] at h; simp at h
    | some FT =>
      have hFT := featureTrees_hold eF
      rw [eT, eF] at h
      simp only at h
      cases eL : lipschitzSeeds L fuel T seeds with
      | none => rw [eL] at h; simp at h
      | some xs =>
        rw [eL] at h
        simp only at h
        cases eS : edgeSeeds T xs FT F L vs ys F.edges 0 with
        | none => rw [eS] at h; simp at h
        | some added =>
          cases hl : F.edges with
          | nil => rw [hl] at hs; simp at hs
          | cons s' l =>
            have : s' = s := by rw [hl] at hs; simpa using hs
            subst this
            rw [hl] at eS
            unfold edgeSeeds at eS
            cases ea : edgeSeed T xs FT F L 0 s' none (vs 0 false) (ys 0 false) with
            | none => rw [ea] at eS; simp at eS
            | some r =>
              obtain ⟨eo, a⟩ := r
              rw [ea] at eS
              simp only at eS
              cases eb : edgeSeed T xs FT F L 0 s' (some eo) (vs 0 true) (ys 0 true) with
              | none => rw [eb] at eS; simp at eS
              | some r =>
                obtain ⟨h1, n, hn, en⟩ := edgeSeed_next hFT ea
                obtain ⟨h2, -⟩ := edgeSeed_next hFT eb
                simp only at en
                rw [en] at h2
                rw [← hl]
                exact ⟨h1, n, hn, h2⟩

/-- **C87, undefined behaviour.** A model with a single edge sphere: no other edge sphere is found, the test for that compares with `SIZE_MAX` while the search returns the number of spheres, and the
table of old numbers is read outside its bounds, whatever the seeds and the random numbers. -/
theorem C87_single_edge_sphere_undefined (seeds : List SeedRec) (F : Features) (L : ℝ) (fuel : Nat) (vs : Nat → Bool → List (Nat → ℝ)) (ys : Nat → Bool → List (ℝ × ℝ)) (s : SeedRec)
    (hF : F.edges = [s]) : ensureDelaunay seeds F L fuel vs ys = none := by
  cases h : ensureDelaunay seeds F L fuel vs ys with
  | none => rfl
  | some out =>
    obtain ⟨⟨j, q, hj, hj2, -⟩, -⟩ := ensureDelaunay_neighbours (s := s) (by rw [hF]; rfl) h
    rw [hF] at hj
    cases j with
    | zero => exact absurd rfl hj2
    | succ j => simp at hj

/-- **C87, undefined behaviour.** The same when all other edge spheres are on the same side of the first one, as at the end of a sharp edge, even where a corner sphere is on the other side. -/
theorem C87_nothing_ahead_undefined (seeds : List SeedRec) (F : Features) (L : ℝ) (fuel : Nat) (vs : Nat → Bool → List (Nat → ℝ)) (ys : Nat → Bool → List (ℝ × ℝ)) (s : SeedRec)
    (hF : F.edges[0]? = some s)
    (hb : ∀ n, NextTo F 0 s none n → 0 < euclid 3 s.x n.x ∧ ∀ (j : Nat) (q : SeedRec), F.edges[j]? = some q → j ≠ 0 → dotN (fun d => q.x d - s.x d) (awayFrom s n) < 0) :
    ensureDelaunay seeds F L fuel vs ys = none := by
  cases h : ensureDelaunay seeds F L fuel vs ys with
  | none => rfl
  | some out =>
    obtain ⟨-, n, hn, j, q, hj, hj2, hj3⟩ := ensureDelaunay_neighbours hF h
    obtain ⟨h1, h2⟩ := hb n hn
    rw [ahead_unit (by rw [sqrt_away]; exact h1)] at hj3
    exact absurd (hj3 _ rfl) (not_le.2 (h2 j q hj hj2))

/-! ## An example: a square of four edge spheres -/

/-- The point `(a, b, c)`. -/
def ptN (a b c : ℝ) : Nat → ℝ := fun d => if d = 0 then a else if d = 1 then b else c

/-- Corners of the unit square. -/
def sqPt : Nat → Nat → ℝ
  | 0 => ptN 0 0 0
  | 1 => ptN 1 0 0
  | 2 => ptN 1 1 0
  | _ => ptN 0 1 0

/-- Edge spheres of radius 1 around the corners of a square, one corner sphere around all of it, one surface sphere far away. -/
def sqF : Features where
  surface := [⟨ptN 100 0 0, 1, 0⟩]
  edges := [⟨sqPt 0, 1, 0⟩, ⟨sqPt 1, 1, 0⟩, ⟨sqPt 2, 1, 0⟩, ⟨sqPt 3, 1, 0⟩]
  corners := [⟨ptN 0.5 0.5 0, 2, 0⟩]
  sizing := []

/-- One seed, far away. -/
def sqSeeds : List SeedRec := [⟨ptN 100 1 0, 1, 1⟩]

theorem sqF_edge {i : Nat} {s : SeedRec} (h : sqF.edges[i]? = some s) : i < 4 ∧ s = ⟨sqPt i, 1, 0⟩ := by
  obtain ⟨hi, rfl⟩ := List.getElem?_eq_some_iff.1 h
  have hi : i < 4 := hi
  refine ⟨hi, ?_⟩
  interval_cases i <;> rfl

theorem sqF_get {i : Nat} (hi : i < 4) : sqF.edges[i]? = some ⟨sqPt i, 1, 0⟩ := by interval_cases i <;> rfl

theorem sq_dist {i j : Nat} (hi : i < 4) (hj : j < 4) : euclid 3 (sqPt i) (sqPt j) ^ 2 = if i = j then 0 else if (i + j) % 2 = 1 then 1 else 2 := by
  rw [euclid3_sq]
  interval_cases i <;> interval_cases j <;> norm_num [sqPt, ptN]

theorem sq_meet {i j : Nat} (hi : i < 4) (hj : j < 4) (hij : j ≠ i) : 0 < euclid 3 (sqPt i) (sqPt j) ∧ euclid 3 (sqPt i) (sqPt j) < 2 := by
  have h := sq_dist hi hj
  have h0 := euclid_nonneg 3 (sqPt i) (sqPt j)
  rw [if_neg (Ne.symm hij)] at h
  constructor
  · rcases h0.lt_or_eq with h1 | h1
    · exact h1
    · rw [← h1] at h; split_ifs at h <;> norm_num at h
  · by_contra hc
    push Not at hc
    have : (4 : ℝ) ≤ euclid 3 (sqPt i) (sqPt j) ^ 2 := by nlinarith
    split_ifs at h <;> linarith

theorem sq_next {i : Nat} {s n : SeedRec} {e : Option (Nat → ℝ)} (hs : sqF.edges[i]? = some s) (h : NextTo sqF i s e n) :
    ∃ j, j < 4 ∧ j ≠ i ∧ n = ⟨sqPt j, 1, 0⟩ ∧ ∀ k, k < 4 → k ≠ i → Ahead s.x e (sqPt k) → euclid 3 s.x (sqPt j) ≤ euclid 3 s.x (sqPt k) := by
  obtain ⟨hi, rfl⟩ := sqF_edge hs
  rcases h with ⟨⟨j, hj, hj2, hmin⟩, -⟩ | ⟨⟨q, ⟨j, hj, hj2, -⟩, hq2⟩, -⟩
  · obtain ⟨hj4, rfl⟩ := sqF_edge hj
    exact ⟨j, hj4, hj2.1, rfl, fun k hk hki ha => hmin k _ (sqF_get hk) ⟨hki, ha⟩⟩
  · obtain ⟨hj4, rfl⟩ := sqF_edge hj
    have := (sq_meet hi hj4 hj2.1).2
    simp only at hq2
    linarith

theorem sq_hasNext {i : Nat} {s : SeedRec} {e : Option (Nat → ℝ)} (hs : sqF.edges[i]? = some s) (h : ∃ k, k < 4 ∧ k ≠ i ∧ Ahead s.x e (sqPt k)) : HasNext sqF i s e := by
  obtain ⟨hi, rfl⟩ := sqF_edge hs
  obtain ⟨k, hk, hki, ha⟩ := h
  refine ⟨⟨k, _, sqF_get hk, hki, ha⟩, ?_⟩
  rintro q ⟨j, hj, hj2, -⟩ hq
  obtain ⟨hj4, rfl⟩ := sqF_edge hj
  have := (sq_meet hi hj4 hj2.1).2
  simp only at hq
  linarith

theorem sq_adjacent {i j : Nat} {n : SeedRec} (hi : i < 4) (hj : j < 4) (hji : j ≠ i) (h : ∀ k, k < 4 → k ≠ i → euclid 3 (sqPt i) (sqPt j) ≤ euclid 3 (sqPt i) (sqPt k)) : (i + j) % 2 = 1 := by
  by_contra hc
  have h1 := sq_dist hi hj
  rw [if_neg (Ne.symm hji), if_neg hc] at h1
  have h2 := h ((i + 1) % 4) (by omega) (by omega)
  have h3 := sq_dist hi (show (i + 1) % 4 < 4 by omega)
  rw [if_neg (by omega), if_pos (by omega)] at h3
  have := euclid_nonneg 3 (sqPt i) (sqPt j)
  nlinarith

theorem sqF_edgesOK : EdgesOK sqF := by
  intro i s hs
  obtain ⟨hi, rfl⟩ := sqF_edge hs
  refine ⟨sq_hasNext hs ⟨(i + 1) % 4, by omega, by omega, fun v hv => by simp at hv⟩, fun n hn => ?_⟩
  obtain ⟨j, hj, hji, rfl, hmin⟩ := sq_next hs hn
  have hm := sq_meet hi hj hji
  have hadj := sq_adjacent (n := ⟨sqPt j, 1, 0⟩) hi hj hji fun k hk hki => hmin k hk hki fun v hv => by simp at hv
  refine ⟨⟨hm.1, by simpa using hm.1.le, by simp only; linarith [hm.2]⟩, sq_hasNext hs ⟨(j + 2) % 4, by omega, by omega, ?_⟩, fun m hm' => ?_⟩
  · intro v hv
    obtain rfl := Option.some.inj hv
    clear hmin hn hs hm hv
    interval_cases i <;> interval_cases j <;> first | omega | (norm_num [sqPt, ptN, dotN, awayFrom])
  · obtain ⟨k, hk, hki, rfl, -⟩ := sq_next hs hm'
    have hm := sq_meet hi hk hki
    exact ⟨hm.1, by simpa using hm.1.le, by simp only; linarith [hm.2]⟩

theorem sqF_ok : sqF.OK (1 / 4) := by
  refine ⟨by norm_num, by norm_num, ⟨?_, ?_⟩, ⟨?_, ?_⟩, ⟨?_, ?_⟩⟩
  · intro q hq; simp [sqF] at hq; subst hq; norm_num
  · intro p hp q hq; simp [sqF] at hp hq; subst hp hq; have := euclid_nonneg 3 (ptN 100 0 0) (ptN 100 0 0); simp only; linarith
  · intro q hq; simp [sqF] at hq; rcases hq with rfl | rfl | rfl | rfl <;> norm_num
  · intro p hp q hq
    have h1 : p.size = 1 := by simp [sqF] at hp; rcases hp with rfl | rfl | rfl | rfl <;> rfl
    have h2 : q.size = 1 := by simp [sqF] at hq; rcases hq with rfl | rfl | rfl | rfl <;> rfl
    have := euclid_nonneg 3 p.x q.x
    rw [h1, h2]; linarith
  · intro q hq; simp [sqF] at hq; subst hq; norm_num
  · intro p hp q hq; simp [sqF] at hp hq; subst hp hq; have := euclid_nonneg 3 (ptN 0.5 0.5 0) (ptN 0.5 0.5 0); simp only; linarith

/-- Draws that are useful everywhere: across the plane of the square. -/
theorem sq_draws : AllDrawsOK sqF (fun _ _ => [ptN 0 0 1]) (fun _ _ => [(1, 0), (3 / 5, 4 / 5)]) := by
  have key : ∀ {i j : Nat}, i < 4 → j < 4 → DrawsOK ⟨sqPt i, 1, 0⟩ ⟨sqPt j, 1, 0⟩ [ptN 0 0 1] [(1, 0), (3 / 5, 4 / 5)] := by
    intro i j hi hj
    refine ⟨⟨ptN 0 0 1, by simp, ?_⟩, ?_⟩
    · have h : unitN (awayFrom ⟨sqPt i, 1, 0⟩ ⟨sqPt j, 1, 0⟩) 2 = 0 := by
        have : sqPt i 2 = 0 ∧ sqPt j 2 = 0 := by constructor <;> interval_cases i <;> interval_cases j <;> norm_num [sqPt, ptN]
        simp [unitN, awayFrom, this]
      unfold UsefulDir
      have h2 : dotN (ptN 0 0 1) (unitN (awayFrom ⟨sqPt i, 1, 0⟩ ⟨sqPt j, 1, 0⟩)) = 0 := by unfold dotN; rw [h]; simp [ptN]
      rw [h2]
      norm_num [dotN, ptN]
    · intro y hy
      simp only [List.mem_cons, List.not_mem_nil, or_false] at hy
      rcases hy with rfl | rfl <;> norm_num
  intro i s hs n hn
  obtain ⟨hi, rfl⟩ := sqF_edge hs
  obtain ⟨j, hj, -, rfl, -⟩ := sq_next hs hn
  refine ⟨key hi hj, fun m hm => ?_⟩
  obtain ⟨k, hk, -, rfl, -⟩ := sq_next hs hm
  exact key hi hk

theorem sq_near {i : Nat} (hi : i < 4) {x : Nat → ℝ} (hx : euclid 3 x (sqPt i) = 1) : euclid 3 x (ptN 0.5 0.5 0) < 1.8 ∧ 90 < euclid 3 x (ptN 100 0 0) ∧ 90 < euclid 3 x (ptN 100 1 0) := by
  have h1 : euclid 3 (sqPt i) (ptN 0.5 0.5 0) ^ 2 = 1 / 2 := by rw [euclid3_sq]; interval_cases i <;> norm_num [sqPt, ptN]
  have h2 : 99 ^ 2 ≤ euclid 3 (sqPt i) (ptN 100 0 0) ^ 2 := by rw [euclid3_sq]; interval_cases i <;> norm_num [sqPt, ptN]
  have h3 : 99 ^ 2 ≤ euclid 3 (sqPt i) (ptN 100 1 0) ^ 2 := by rw [euclid3_sq]; interval_cases i <;> norm_num [sqPt, ptN]
  have n1 := euclid_nonneg 3 (sqPt i) (ptN 0.5 0.5 0)
  have n2 := euclid_nonneg 3 (sqPt i) (ptN 100 0 0)
  have n3 := euclid_nonneg 3 (sqPt i) (ptN 100 1 0)
  have t1 := euclid_triangle 3 x (sqPt i) (ptN 0.5 0.5 0)
  have t2 := euclid_triangle 3 (sqPt i) x (ptN 100 0 0)
  have t3 := euclid_triangle 3 (sqPt i) x (ptN 100 1 0)
  rw [euclid_comm 3 (sqPt i) x, hx] at t2 t3
  refine ⟨by nlinarith, by nlinarith, by nlinarith⟩

/-- The run of the example. -/
theorem sq_run (vs : Nat → Bool → List (Nat → ℝ)) (ys : Nat → Bool → List (ℝ × ℝ)) (hd : AllDrawsOK sqF vs ys) (hy : ys 0 false ≠ []) :
    ∃ (xs added : List SeedRec) (N : Nat), (∀ fuel, N ≤ fuel → ensureDelaunay sqSeeds sqF (1 / 4) fuel vs ys = some (xs ++ added)) ∧ xs.length = sqSeeds.length ∧
      (∀ b ∈ xs, b.x = ptN 100 1 0 ∧ b.size = 1 ∧ b.region = 1) ∧ added ≠ [] ∧
      ∀ a ∈ added, euclid 3 a.x (ptN 0.5 0.5 0) < 1.8 ∧ 90 < euclid 3 a.x (ptN 100 1 0) ∧ 0 ≤ a.size ∧ a.size ≤ 1 ∧ a.region = 1 := by
  obtain ⟨xs, os, N, h1, h2, h3, h4, h5⟩ := C87_edge_seeds_partial sqSeeds sqF (1 / 4) sqF_ok (by simp [sqF]) (by simp [sqF]) (by simp [sqSeeds])
    (by intro a ha; simp [sqSeeds] at ha; subst ha; norm_num) sqF_edgesOK vs ys hd
  have hx : ∀ b ∈ xs, b.x = ptN 100 1 0 ∧ b.region = 1 := by
    intro b hb
    obtain ⟨i, hi⟩ := List.getElem?_of_mem hb
    obtain ⟨hil, -⟩ := List.getElem?_eq_some_iff.1 hi
    rw [h2] at hil
    have h0 : i = 0 := by simp [sqSeeds] at hil; exact hil
    subst h0
    obtain ⟨q1, q2, -⟩ := h3 0 _ b (by simp [sqSeeds]; rfl) hi
    exact ⟨q1, q2⟩
  refine ⟨xs, _, N, h1, h2, fun b hb => ?_, ?_, ?_⟩
  · obtain ⟨i, hi⟩ := List.getElem?_of_mem hb
    have h0 : i = 0 := by have := (List.getElem?_eq_some_iff.1 hi).1; rw [h2] at this; simpa [sqSeeds] using this
    subst h0
    obtain ⟨q1, q2, q3, c, hc, hcb⟩ := h3 0 _ b (by simp [sqSeeds]; rfl) hi
    simp only [sqSeeds, List.mem_singleton] at hc
    subst hc
    have := mul_nonneg (show (0 : ℝ) ≤ 1 / 4 by norm_num) (euclid_nonneg 3 (ptN 100 1 0) (ptN 100 1 0))
    exact ⟨q1, le_antisymm q3 (by simp only at hcb; linarith), q2⟩
  · -- the first circle gets a seed
    have h0 : 0 < os.length := by rw [h4]; simp [sqF]
    obtain ⟨n, m, hn, hc, -, -⟩ := h5 0 _ os[0] (sqF_get (by norm_num)) (List.getElem?_eq_getElem h0)
    obtain ⟨j, hj, hj0, rfl, -⟩ := sq_next (sqF_get (by norm_num)) hn
    obtain ⟨c, r, e1, e2, hC, ⟨a, ha, -⟩ | ⟨-, hno⟩⟩ := hc
    · intro hnil
      rw [List.flatMap_eq_nil_iff] at hnil
      have := hnil os[0] (List.getElem_mem h0)
      rw [ha] at this
      simp at this
    · exfalso
      rcases hno with ⟨l, hnd, hl3, hl⟩ | hno
      · have hsub : l ⊆ [0] := by
          intro k hk
          obtain ⟨p, hp, -⟩ := hl k hk
          obtain ⟨hkl, -⟩ := List.getElem?_eq_some_iff.1 hp
          rw [h2] at hkl
          simp [sqSeeds] at hkl
          simp [hkl]
        have := (List.subperm_of_subset hnd hsub).length_le
        simp at this
        omega
      · obtain ⟨y, hy⟩ := List.exists_mem_of_ne_nil _ hy
        have hon := (hC.on (by norm_num) (by norm_num) ((hd 0 _ (sqF_get (by norm_num)) _ hn).1.unit y hy)).1
        have hnr := sq_near (i := 0) (by norm_num) hon
        obtain ⟨p, hp, hp2⟩ := hno y hy _ rfl (by
          intro q hq
          simp [sqF] at hq
          subst hq
          exact le_trans (by norm_num) hnr.2.1.le)
        obtain ⟨g1, g2⟩ := hx p hp.1
        rw [g1, g2] at hp2
        rcases hp2 with h | h
        · exact absurd h (by norm_num)
        · exact absurd (lt_trans hnr.2.2 h) (by norm_num)
  · intro a ha
    obtain ⟨p, hp, hap⟩ := List.mem_flatMap.1 ha
    obtain ⟨i, hi⟩ := List.getElem?_of_mem hp
    obtain ⟨hil, -⟩ := List.getElem?_eq_some_iff.1 hi
    have hi4 : i < 4 := by rw [h4] at hil; exact hil
    obtain ⟨n, m, hn, hc, hm, hc'⟩ := h5 i _ p (sqF_get hi4) hi
    have key : ∀ {n : SeedRec} {y : List (ℝ × ℝ)} {o : Option SeedRec}, CircleOutcome xs sqF ⟨sqPt i, 1, 0⟩ n y o → a ∈ o.toList → euclid 3 a.x (sqPt i) = 1 ∧ 0 ≤ a.size ∧ a.size ≤ 1 ∧ a.region = 1 := by
      rintro n y o ⟨c, r, e1, e2, hC, ⟨b, hb, hr, hs, -, -, -, ⟨q, hq, hqr, -⟩, -⟩ | ⟨hb, -⟩⟩ hao
      · rw [hb] at hao
        simp at hao
        subst hao
        refine ⟨hs, by rw [hr]; exact hC.radius, ?_, by rw [hqr]; exact (hx q hq.1).2⟩
        have h6 := hC.first
        have h7 := hC.radius
        simp only at h6
        rw [hr]
        nlinarith [sq_nonneg (euclid 3 c (sqPt i))]
      · rw [hb] at hao; simp at hao
    obtain ⟨g1, g2, g3, g4⟩ := (List.mem_append.1 hap).elim (key hc) (key hc')
    have := sq_near hi4 g1
    exact ⟨this.1, this.2.2, g2, g3, g4⟩

/-- **C87 fails** for corner spheres: new seeds are checked against the surface spheres only.  In this example, for all useful random draws, seeds are added and every one of them is well inside a
corner sphere. -/
theorem C87_inside_corner_false (vs : Nat → Bool → List (Nat → ℝ)) (ys : Nat → Bool → List (ℝ × ℝ)) (hd : AllDrawsOK sqF vs ys) (hy : ys 0 false ≠ []) :
    ∃ (xs added : List SeedRec) (N : Nat), (∀ fuel, N ≤ fuel → ensureDelaunay sqSeeds sqF (1 / 4) fuel vs ys = some (xs ++ added)) ∧ xs.length = sqSeeds.length ∧
      added ≠ [] ∧ ∀ a ∈ added, ∃ q ∈ sqF.corners, euclid 3 a.x q.x < q.size - 0.1 := by
  obtain ⟨xs, added, N, h1, h2, -, h3, h4⟩ := sq_run vs ys hd hy
  refine ⟨xs, added, N, h1, h2, h3, fun a ha => ⟨⟨ptN 0.5 0.5 0, 2, 0⟩, by simp [sqF], ?_⟩⟩
  have := (h4 a ha).1
  norm_num at this ⊢
  linarith

/-- The hypotheses of `C87_edge_seeds_partial` can be met: the square, with draws across its plane; seeds are added. -/
example : ∃ (xs added : List SeedRec) (N : Nat), (∀ fuel, N ≤ fuel → ensureDelaunay sqSeeds sqF (1 / 4) fuel (fun _ _ => [ptN 0 0 1]) (fun _ _ => [(1, 0), (3 / 5, 4 / 5)]) = some (xs ++ added)) ∧ added ≠ [] := by
  obtain ⟨xs, added, N, h, -, h2, -⟩ := C87_inside_corner_false _ _ sq_draws (by simp)
  exact ⟨xs, added, N, h, h2⟩

/-- The hypotheses of `C87_nothing_ahead_undefined` can be met: three edge spheres in a row. -/
example (vs : Nat → Bool → List (Nat → ℝ)) (ys : Nat → Bool → List (ℝ × ℝ)) (fuel : Nat) (seeds : List SeedRec) :
    ensureDelaunay seeds ⟨[⟨ptN 9 9 9, 1, 0⟩], [⟨ptN 0 0 0, 1, 0⟩, ⟨ptN 1 0 0, 1, 0⟩, ⟨ptN 2 0 0, 1, 0⟩], [⟨ptN (-1) 0 0, 1, 0⟩], []⟩ (1 / 4) fuel vs ys = none := by
  refine C87_nothing_ahead_undefined _ _ _ _ _ _ ⟨ptN 0 0 0, 1, 0⟩ rfl fun n hn => ?_
  have h01 : euclid 3 (ptN 0 0 0) (ptN 1 0 0) = 1 := by
    have := euclid3_sq (ptN 0 0 0) (ptN 1 0 0)
    norm_num [ptN] at this
    rcases this with h | h
    · exact h
    · linarith [euclid_nonneg 3 (ptN 0 0 0) (ptN 1 0 0)]
  have h02 : euclid 3 (ptN 0 0 0) (ptN 2 0 0) ^ 2 = 4 := by rw [euclid3_sq]; norm_num [ptN]
  have hcase : ∀ (j : Nat) (q : SeedRec), [(⟨ptN 0 0 0, 1, 0⟩ : SeedRec), ⟨ptN 1 0 0, 1, 0⟩, ⟨ptN 2 0 0, 1, 0⟩][j]? = some q → j ≠ 0 → q = ⟨ptN 1 0 0, 1, 0⟩ ∨ q = ⟨ptN 2 0 0, 1, 0⟩ := by
    intro j q hj hj0
    match j with
    | 0 => exact absurd rfl hj0
    | 1 => left; simpa using hj.symm
    | 2 => right; simpa using hj.symm
    | j + 3 => simp at hj
  have hn1 : n = ⟨ptN 1 0 0, 1, 0⟩ := by
    have hnear : ∀ q, NearestIn (OtherEdge 0 ⟨ptN 0 0 0, 1, 0⟩ none) [(⟨ptN 0 0 0, 1, 0⟩ : SeedRec), ⟨ptN 1 0 0, 1, 0⟩, ⟨ptN 2 0 0, 1, 0⟩] (ptN 0 0 0) q → q = ⟨ptN 1 0 0, 1, 0⟩ := by
      rintro q ⟨j, hj, hj2, hmin⟩
      rcases hcase j q hj hj2.1 with h | rfl
      · exact h
      · have := hmin 1 ⟨ptN 1 0 0, 1, 0⟩ (by rfl) ⟨by simp, fun v hv => by simp at hv⟩
        simp only at this
        rw [h01] at this
        nlinarith [euclid_nonneg 3 (ptN 0 0 0) (ptN 2 0 0)]
    rcases hn with ⟨h, -⟩ | ⟨⟨q, hq, hq2⟩, -⟩
    · exact hnear n h
    · rw [hnear q hq] at hq2
      simp only at hq2
      rw [h01] at hq2
      norm_num at hq2
  subst hn1
  refine ⟨by simp only; rw [h01]; norm_num, fun j q hj hj0 => ?_⟩
  rcases hcase j q hj hj0 with rfl | rfl <;> norm_num [dotN, awayFrom, ptN]

end VoroCrust
