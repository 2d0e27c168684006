import Verif.Props.KdOrder
import Verif.Lemmas.KdQuery
import Mathlib.Algebra.BigOperators.Group.Finset.Basic
import Mathlib.Algebra.Order.BigOperators.Group.Finset
import Mathlib.Data.Int.Log
import Mathlib.Tactic.NormNum
import Mathlib.Tactic.IntervalCases

/-! # Properties C06 – C09: kd-tree queries -/

set_option linter.unusedSimpArgs false

namespace VoroCrust

open Classical

/-! ## Specification vocabulary -/

/-- Euclidean distance in `dim` coordinates. -/
noncomputable def euclid (dim : Nat) (x p : Nat → ℝ) : ℝ := Real.sqrt (∑ d ∈ Finset.range dim, (x d - p d) ^ 2)

/-- Squared Euclidean distance. -/
noncomputable def euclidSq (dim : Nat) (x p : Nat → ℝ) : ℝ := ∑ d ∈ Finset.range dim, (x d - p d) ^ 2

/-- A tree over real points in dimension at least one that is the result of some history of insertions,
rebuilds and re-enumerations. -/
def RealTree (P : PointStore ℝ) (ln : Links) : Prop := P.lt = realLt ∧ 0 < P.dim ∧ BuiltTree P ln

theorem realLt_asymm (a b : ℝ) (h : realLt a b = true) : realLt b a = false := by
  simp only [realLt, decide_eq_true_eq, decide_eq_false_iff_not, not_lt] at *
  exact le_of_lt h

theorem RealTree.ok {P : PointStore ℝ} {ln : Links} (h : RealTree P ln) :
    ∃ t, TreeOK P ln t ∧ t ≠ .nil ∧ ∀ k, k ∈ t.idx ↔ k < P.num := by
  obtain ⟨t, h1, h2, h3⟩ := h.2.2.ok h.2.1 (by rw [h.1]; exact realLt_asymm)
  exact ⟨t, h1, h2, fun k => by rw [h3.mem_iff, List.mem_range]⟩

theorem dstSq_exact (x p : Nat → ℝ) (n : Nat) : dstSq Rounding.exact x p n = euclidSq n x p := by
  induction n with
  | zero => simp [dstSq, euclidSq]
  | succ n ih =>
    unfold euclidSq at *
    rw [Finset.sum_range_succ, ← ih]
    simp only [dstSq, Rounding.exact, id]
    ring

theorem dstOf_exact (x p : Nat → ℝ) (n : Nat) : dstOf Rounding.exact x p n = euclid n x p := by
  simp only [dstOf, dstSq_exact]; rfl

theorem pruneOK_exact {P : PointStore ℝ} (hlt : P.lt = realLt) (x : Nat → ℝ) : PruneOK Rounding.exact P x where
  right i q d b hi hq hd hpq hb hn := by
    cases b with
    | top => exact absurd trivial hn
    | coe b =>
      have h0 := hb b rfl
      rw [hlt] at hpq; simp only [realLt, decide_eq_true_eq] at hpq
      exact WithTop.coe_le_coe.2 (dst_ge_of_coord hd h0.1 h0.2 (prune_right h0.2 rfl hpq hn))
  left i q d b hi hq _ hd hpq hb hn := by
    cases b with
    | top => exact absurd trivial hn
    | coe b =>
      have h0 := hb b rfl
      rw [hlt] at hpq; simp only [realLt, decide_eq_false_iff_not, not_lt] at hpq
      exact WithTop.coe_le_coe.2 (dst_ge_of_coord hd h0.1 h0.2 (prune_left_exact hpq hn))

/-! ## C06 -/

/-- **C06.** On any built tree the closest-point query (either implementation, any eligibility filter,
any incoming bound) terminates without out-of-range access and returns either an eligible stored point
nearer than the bound and nearest among all eligible points, with its distance, or, exactly when no
eligible point is nearer than the bound, the unchanged inputs. -/
theorem C06_closest_is_exhaustive (P : PointStore ℝ) (ln : Links) (h : RealTree P ln) (elig : Nat → Bool)
    (x : Nat → ℝ) (mesher : Bool) (bound : WithTop ℝ) (hb : 0 ≤ bound) :
    ∃ c b, closestQuery Rounding.exact P ln elig x mesher bound = some (c, b) ∧
      ((c < P.num ∧ elig c = true ∧ b = (euclid P.dim x (P.pts c) : WithTop ℝ) ∧ b < bound ∧
          ∀ q, q < P.num → elig q = true → euclid P.dim x (P.pts c) ≤ euclid P.dim x (P.pts q)) ∨
        (c = P.num ∧ b = bound ∧ ∀ q, q < P.num → elig q = true → bound ≤ (euclid P.dim x (P.pts q) : WithTop ℝ))) := by
  obtain ⟨t, hok, hne, hmem⟩ := h.ok
  have hbok : BoundOK Rounding.exact bound := by
    intro r hr; subst hr; exact ⟨WithTop.coe_le_coe.1 hb, rfl⟩
  obtain ⟨⟨c, b⟩, e, hB⟩ := closestQuery_spec (elig := elig) (strict := True) (fun _ => rfl) (pruneOK_exact h.1 x) h.2.1 hok hne mesher hbok
  simp only [dstOf_exact] at hB
  refine ⟨c, b, e, ?_⟩
  rcases hB.attained with h' | ⟨h1, h2, h3, h4⟩
  · right
    obtain ⟨rfl, rfl⟩ := Prod.mk.inj h'
    exact ⟨rfl, rfl, fun q hq he => hB.min q ((hmem q).2 hq) he⟩
  · left
    refine ⟨(hmem c).1 h1, h2, h3, h4 trivial, fun q hq he => ?_⟩
    have := hB.min q ((hmem q).2 hq) he
    simp only at h3
    rw [h3] at this
    exact WithTop.coe_le_coe.1 this

/-- On a tree that holds no point the unguarded closest-point overloads dereference an unset root index:
undefined behaviour (the overload that takes only a position guards against it). -/
theorem C06_empty_tree_undefined (ρ : Rounding) (P : PointStore ℝ) (jp : Nat → Nat → ℝ) (jl jr : Nat → Nat) (elig : Nat → Bool)
    (x : Nat → ℝ) (mesher : Bool) (bound : WithTop ℝ) :
    closestQuery ρ P (SmartTree.empty (κ := ℝ) jp jl jr).links elig x mesher bound = none := rfl

/-- A concrete built tree: the points 1 and 2 on a line. -/
noncomputable def twoPoints (a b : ℝ) : PointStore ℝ :=
  { pts := upd (upd (fun _ _ => 0) 0 (fun _ => a)) 1 (fun _ => b), num := 2, dim := 1, lt := realLt }

/-- Its links when the second point is not larger / is larger than the first. -/
def linkLeft : Links :=
  { left := upd (upd (upd (fun k => k) 0 0) 1 1) 0 1, right := upd (upd (fun k => k) 0 0) 1 1, origin := some 0, height := 2 }
def linkRight : Links :=
  { left := upd (upd (fun k => k) 0 0) 1 1, right := upd (upd (upd (fun k => k) 0 0) 1 1) 0 1, origin := some 0, height := 2 }

theorem twoPoints_left {a b : ℝ} (hab : b ≤ a) : RealTree (twoPoints a b) linkLeft := by
  refine ⟨rfl, Nat.one_pos, BuiltTree.inserted (dim := 1) realLt (fun _ _ => false) [fun _ => a, fun _ => b] (fun _ _ => 0) id id
    { pts := (twoPoints a b).pts, num := 2, cap := 100, links := linkLeft } ?_ (by simp)⟩
  have h : realLt a b = false := by simp [realLt, hab]
  have hid : (id : Nat → Nat) = fun k => k := rfl
  simp [addTreePoints, addTreePoint, SmartTree.empty, kdAddPoint, insertWalk, upd, twoPoints, h, linkLeft]
  exact ⟨rfl, rfl⟩

theorem twoPoints_right {a b : ℝ} (hab : a < b) : RealTree (twoPoints a b) linkRight := by
  refine ⟨rfl, Nat.one_pos, BuiltTree.inserted (dim := 1) realLt (fun _ _ => false) [fun _ => a, fun _ => b] (fun _ _ => 0) id id
    { pts := (twoPoints a b).pts, num := 2, cap := 100, links := linkRight } ?_ (by simp)⟩
  have h : realLt a b = true := by simp [realLt, hab]
  simp [addTreePoints, addTreePoint, SmartTree.empty, kdAddPoint, insertWalk, upd, twoPoints, h, linkRight]
  exact ⟨rfl, rfl⟩

-- non-vacuity: C06 applies to a concrete tree and query without bound, and must find a point
example : ∃ c b, closestQuery Rounding.exact (twoPoints 1 2) linkRight (fun _ => true) (fun _ => 3) false ⊤ = some (c, b) ∧ c < 2 := by
  obtain ⟨c, b, e, h | h⟩ := C06_closest_is_exhaustive (twoPoints 1 2) linkRight (twoPoints_right (by norm_num))
    (fun _ => true) (fun _ => 3) false ⊤ le_top
  · exact ⟨c, b, e, h.1⟩
  · exact absurd (h.2.2 0 (by decide) rfl) (by simp)

/-! ## C07 -/

/-- A stored coordinate is a representable number. -/
def Representable (ρ : Rounding) (P : PointStore ℝ) : Prop := ∀ i d, i < P.num → d < P.dim → ρ.rnd (P.pts i d) = P.pts i d

/-- No two different points agree in a coordinate. -/
def NoTies (P : PointStore ℝ) : Prop := ∀ i q d, i < P.num → q < P.num → i ≠ q → d < P.dim → P.pts i d ≠ P.pts q d

theorem pruneOK_noTies {ρ : Rounding} {P : PointStore ℝ} (hlt : P.lt = realLt) (hr : Representable ρ P) (ht : NoTies P)
    (x : Nat → ℝ) : PruneOK ρ P x where
  right i q d b hi hq hd hpq hb hn := by
    cases b with
    | top => exact absurd trivial hn
    | coe b =>
      have h0 := hb b rfl
      rw [hlt] at hpq; simp only [realLt, decide_eq_true_eq] at hpq
      exact WithTop.coe_le_coe.2 (dst_ge_of_coord hd h0.1 h0.2 (prune_right h0.2 (hr q d hq hd) hpq hn))
  left i q d b hi hq hiq hd hpq hb hn := by
    cases b with
    | top => exact absurd trivial hn
    | coe b =>
      have h0 := hb b rfl
      rw [hlt] at hpq; simp only [realLt, decide_eq_false_iff_not, not_lt] at hpq
      have hlt' : P.pts q d < P.pts i d := lt_of_le_of_ne hpq (ht q i d hq hi (Ne.symm hiq) hd)
      exact WithTop.coe_le_coe.2 (dst_ge_of_coord hd h0.1 h0.2 (prune_left h0.2 (hr q d hq hd) hlt' hn))

/-- **C07 (partial).** With every operation rounded by an arbitrary rounding mode, and representable
point coordinates no two of which coincide, the pruned search returns a point whose *computed* distance
is minimal among all eligible points and not above the bound, or the unchanged input when no computed
distance is below the bound.  Missing: points that tie in a coordinate with an ancestor (see
`C07_rounding_tie_false`). -/
theorem C07_rounded_closest_partial (ρ : Rounding) (P : PointStore ℝ) (ln : Links) (h : RealTree P ln)
    (hr : Representable ρ P) (ht : NoTies P) (elig : Nat → Bool) (x : Nat → ℝ) (mesher : Bool) (bound : WithTop ℝ)
    (hb : ∀ r : ℝ, bound = (r : WithTop ℝ) → 0 ≤ r ∧ ρ.rnd r = r) :
    ∃ c b, closestQuery ρ P ln elig x mesher bound = some (c, b) ∧
      ((c < P.num ∧ elig c = true ∧ b = (dstOf ρ x (P.pts c) P.dim : WithTop ℝ) ∧ b ≤ bound ∧
          ∀ q, q < P.num → elig q = true → dstOf ρ x (P.pts c) P.dim ≤ dstOf ρ x (P.pts q) P.dim) ∨
        (c = P.num ∧ b = bound ∧ ∀ q, q < P.num → elig q = true → bound ≤ (dstOf ρ x (P.pts q) P.dim : WithTop ℝ))) := by
  obtain ⟨t, hok, hne, hmem⟩ := h.ok
  obtain ⟨⟨c, b⟩, e, hB⟩ := closestQuery_spec (elig := elig) (strict := False) (fun h => h.elim) (pruneOK_noTies h.1 hr ht x) h.2.1 hok hne mesher hb
  refine ⟨c, b, e, ?_⟩
  rcases hB.attained with h' | ⟨h1, h2, h3, -⟩
  · right
    obtain ⟨rfl, rfl⟩ := Prod.mk.inj h'
    exact ⟨rfl, rfl, fun q hq he => hB.min q ((hmem q).2 hq) he⟩
  · left
    refine ⟨(hmem c).1 h1, h2, h3, hB.le, fun q hq he => ?_⟩
    have := hB.min q ((hmem q).2 hq) he
    simp only at h3
    rw [h3] at this
    exact WithTop.coe_le_coe.1 this

/-- Magnitude rounding of a positive number down to a power of two. -/
noncomputable def floorPow2 (x : ℝ) : ℝ := (2 : ℝ) ^ (Int.log 2 x)

theorem floorPow2_pos (x : ℝ) : 0 < floorPow2 x := zpow_pos (by norm_num) _

theorem floorPow2_le {x : ℝ} (h : 0 < x) : floorPow2 x ≤ x := by
  have := Int.zpow_log_le_self (b := 2) (R := ℝ) (by norm_num) h
  simpa [floorPow2] using this

theorem floorPow2_mono {x y : ℝ} (hx : 0 < x) (h : x ≤ y) : floorPow2 x ≤ floorPow2 y :=
  zpow_le_zpow_right₀ (by norm_num) (Int.log_mono_right hx h)

theorem floorPow2_zpow (k : ℤ) : floorPow2 ((2 : ℝ) ^ k) = (2 : ℝ) ^ k := by
  have := Int.log_zpow (R := ℝ) (b := 2) (by norm_num) k
  unfold floorPow2
  rw [show ((2 : ℝ) ^ k) = ((2 : ℕ) : ℝ) ^ k by norm_num, this]
  norm_num

/-- A one-digit binary floating point system, rounding towards zero. -/
noncomputable def oneDigit (x : ℝ) : ℝ := if 0 < x then floorPow2 x else if x < 0 then -floorPow2 (-x) else 0

theorem oneDigit_pos {x : ℝ} (h : 0 < x) : oneDigit x = floorPow2 x := by simp [oneDigit, h]
theorem oneDigit_neg {x : ℝ} (h : x < 0) : oneDigit x = -floorPow2 (-x) := by
  simp [oneDigit, h, not_lt.2 (le_of_lt h)]
theorem oneDigit_zero : oneDigit 0 = 0 := by simp [oneDigit]

theorem oneDigit_odd (x : ℝ) : oneDigit (-x) = -oneDigit x := by
  rcases lt_trichotomy x 0 with h | h | h
  · rw [oneDigit_pos (by linarith), oneDigit_neg h, neg_neg]
  · subst h; simp [oneDigit_zero]
  · rw [oneDigit_neg (by linarith), oneDigit_pos h, neg_neg]

/-- The one-digit system is a rounding mode in the sense of the model. -/
noncomputable def Rounding.oneDigit : Rounding where
  rnd := VoroCrust.oneDigit
  mono := by
    intro x y h
    rcases lt_trichotomy x 0 with hx | hx | hx
    · rcases lt_trichotomy y 0 with hy | hy | hy
      · rw [oneDigit_neg hx, oneDigit_neg hy]
        exact neg_le_neg (floorPow2_mono (by linarith) (by linarith))
      · subst hy; rw [oneDigit_neg hx, oneDigit_zero]
        have := floorPow2_pos (-x); linarith
      · rw [oneDigit_neg hx, oneDigit_pos hy]
        have := floorPow2_pos (-x); have := floorPow2_pos y; linarith
    · subst hx
      rw [oneDigit_zero]
      rcases lt_or_eq_of_le h with hy | hy
      · rw [oneDigit_pos hy]; exact le_of_lt (floorPow2_pos y)
      · rw [← hy, oneDigit_zero]
    · rw [oneDigit_pos hx, oneDigit_pos (lt_of_lt_of_le hx h)]
      exact floorPow2_mono hx h
  idem := by
    intro x
    rcases lt_trichotomy x 0 with hx | hx | hx
    · rw [oneDigit_neg hx, oneDigit_odd, oneDigit_pos (floorPow2_pos _)]
      congr 1; exact floorPow2_zpow _
    · subst hx; simp [oneDigit_zero]
    · rw [oneDigit_pos hx, oneDigit_pos (floorPow2_pos _)]
      exact floorPow2_zpow _
  neg := oneDigit_odd
  sqrtSq := by
    intro x hx hfix
    rcases lt_or_eq_of_le hx with hx | hx
    · rw [oneDigit_pos hx] at hfix
      unfold floorPow2 at hfix
      set k := Int.log 2 x
      have h2 : x * x = (2 : ℝ) ^ (k + k) := by
        rw [zpow_add₀ (by norm_num), hfix]
      have h3 : VoroCrust.oneDigit (x * x) = x * x := by
        rw [h2, oneDigit_pos (zpow_pos (by norm_num) _), floorPow2_zpow]
      rw [h3, Real.sqrt_mul_self hx.le, oneDigit_pos hx]
      exact hfix
    · rw [← hx]; simp [oneDigit_zero]

theorem oneDigit_two_pow (k : ℤ) : VoroCrust.oneDigit ((2 : ℝ) ^ k) = (2 : ℝ) ^ k := by
  rw [oneDigit_pos (zpow_pos (by norm_num) _), floorPow2_zpow]

theorem oneDigit_of {x : ℝ} (k : ℤ) (h1 : (2 : ℝ) ^ k ≤ x) (h2 : x < (2 : ℝ) ^ (k + 1)) : VoroCrust.oneDigit x = (2 : ℝ) ^ k := by
  have hx : 0 < x := lt_of_lt_of_le (zpow_pos (by norm_num) _) h1
  rw [oneDigit_pos hx]
  unfold floorPow2
  congr 1
  apply le_antisymm
  · have := (Int.lt_zpow_iff_log_lt (R := ℝ) (b := 2) (by norm_num) (x := k + 1) hx).1 (by simpa using h2)
    omega
  · exact (Int.zpow_le_iff_le_log (R := ℝ) (b := 2) (by norm_num) hx).1 (by simpa using h1)

/-- **C07 is false without the tie hypothesis.** There is a rounding mode and a two-point tree in which
the search prunes an eligible point whose computed distance (2) is below the bound (4): the tied point
lies in the left subtree and the rounded `x - bound` equals its coordinate. -/
theorem C07_rounding_tie_false :
    ∃ (ρ : Rounding) (P : PointStore ℝ) (ln : Links) (elig : Nat → Bool) (x : Nat → ℝ) (bound : ℝ),
      RealTree P ln ∧ Representable ρ P ∧ 0 ≤ bound ∧ ρ.rnd bound = bound ∧ (∀ d, ρ.rnd (x d) = x d) ∧
      (∀ mesher, closestQuery ρ P ln elig x mesher (bound : WithTop ℝ) = some (P.num, (bound : WithTop ℝ))) ∧
      ∃ q, q < P.num ∧ elig q = true ∧ dstOf ρ x (P.pts q) P.dim < bound := by
  have r1 : oneDigit 1 = 1 := by have := oneDigit_two_pow 0; norm_num at this; exact this
  have r2 : oneDigit 2 = 2 := by have := oneDigit_two_pow 1; norm_num at this; exact this
  have r4 : oneDigit 4 = 4 := by have := oneDigit_two_pow 2; norm_num at this; exact this
  have r3 : oneDigit 3 = 2 := by have := oneDigit_of (x := 3) 1 (by norm_num) (by norm_num); norm_num at this; exact this
  have r5 : oneDigit 5 = 4 := by have := oneDigit_of (x := 5) 2 (by norm_num) (by norm_num); norm_num at this; exact this
  have n1 : oneDigit (-1) = -1 := by rw [oneDigit_odd, r1]
  have n4 : oneDigit (-4) = -4 := by rw [oneDigit_odd, r4]
  have n5 : oneDigit (-5) = -4 := by rw [oneDigit_odd, r5]
  have hs : Real.sqrt 4 = 2 := by
    rw [show (4 : ℝ) = 2 * 2 by norm_num]; exact Real.sqrt_mul_self (by norm_num)
  refine ⟨Rounding.oneDigit, twoPoints (-4) (-4), linkLeft, fun i => i == 1, fun _ => -1, 4, twoPoints_left (le_refl _), ?_,
    by norm_num, r4, fun _ => n1, ?_, 1, by decide, rfl, ?_⟩
  · intro i d hi _
    have hi : i < 2 := hi
    interval_cases i <;> simp [twoPoints, upd, Rounding.oneDigit, n4]
  · have hreach : ¬ reachLeft Rounding.oneDigit (-1) (-4) ((4 : ℝ) : WithTop ℝ) := by
      show ¬ oneDigit (-1 - 4) < -4
      rw [show (-1 - 4 : ℝ) = -5 by norm_num, n5]; norm_num
    intro mesher
    cases mesher <;>
      simp [closestQuery, linkLeft, twoPoints, closestSmart, closestMesher, upd] <;>
      exact fun h => absurd h hreach
  · show oneDigit (Real.sqrt _) < 4
    simp only [twoPoints, dstSq, upd, Rounding.oneDigit]
    norm_num [r3, r4, r2, hs]

-- non-vacuity of C07 (partial): a rounding different from the identity and a tree without ties
example : ∃ c b, closestQuery Rounding.oneDigit (twoPoints 1 2) linkRight (fun _ => true) (fun _ => 4) true ⊤ = some (c, b) ∧ c < 2 := by
  have r1 : oneDigit 1 = 1 := by have := oneDigit_two_pow 0; norm_num at this; exact this
  have r2 : oneDigit 2 = 2 := by have := oneDigit_two_pow 1; norm_num at this; exact this
  obtain ⟨c, b, e, h | h⟩ := C07_rounded_closest_partial Rounding.oneDigit (twoPoints 1 2) linkRight (twoPoints_right (by norm_num))
    (by intro i d hi _
        have hi : i < 2 := hi
        interval_cases i <;> simp [twoPoints, upd, Rounding.oneDigit, r1, r2])
    (by intro i q d hi hq hiq _
        have hi : i < 2 := hi
        have hq : q < 2 := hq
        interval_cases i <;> interval_cases q <;> simp [twoPoints, upd] at *)
    (fun _ => true) (fun _ => 4) true ⊤ (by intro r hr; exact absurd hr (by simp))
  · exact ⟨c, b, e, h.1⟩
  · exact absurd (h.2.2 0 (by decide) rfl) (by simp)

/-! ## C08 -/

theorem sphereQuery_spec {P : PointStore ℝ} {ln : Links} (h : RealTree P ln) (elig : Nat → Bool)
    (accept : ℝ → Prop) (x : Nat → ℝ) {r : ℝ} (hr : 0 ≤ r) :
    ∃ l, sphereQuery Rounding.exact P ln elig accept x r = some l ∧ l.Nodup ∧
      (∀ q ∈ l, q < P.num ∧ elig q = true ∧ accept (euclidSq P.dim x (P.pts q))) ∧
      (∀ q, q < P.num → elig q = true → accept (euclidSq P.dim x (P.pts q)) → euclidSq P.dim x (P.pts q) < r * r → q ∈ l) := by
  obtain ⟨t, hok, hne, hmem⟩ := h.ok
  rcases hok.root with ⟨_, h1⟩ | ⟨o, ho, hrep⟩
  · exact absurd h1 hne
  · obtain ⟨l, e, h1, -, h2, h3⟩ := seedsInSphere_spec (ρ := Rounding.exact) (P := P) (ln := ln) (elig := elig) (x := x) (accept := accept) (rad := r)
      (fun q => euclidSq P.dim x (P.pts q) < r * r)
      (by
        intro i q d hi hq hd hpq hnear
        by_contra hc
        rw [h.1] at hpq; simp only [realLt, decide_eq_true_eq] at hpq
        have := sq_ge_of_coord (ρ := Rounding.exact) (x := x) (p := P.pts q) hd hr (prune_right rfl rfl hpq hc)
        rw [dstSq_exact] at this
        exact absurd hnear (not_lt.2 this))
      (by
        intro i q d hi hq _ hd hpq hnear
        by_contra hc
        rw [h.1] at hpq; simp only [realLt, decide_eq_false_iff_not, not_lt] at hpq
        have := sq_ge_of_coord (ρ := Rounding.exact) (x := x) (p := P.pts q) hd hr (prune_left_exact hpq hc)
        rw [dstSq_exact] at this
        exact absurd hnear (not_lt.2 this))
      P.num t 0 o h.2.1 hrep hok.valid hok.nodup hok.ordered (length_le_of_nodup_lt hok.nodup hok.valid)
    simp only [dstSq_exact] at h2 h3
    refine ⟨l, by simp [sphereQuery, ho, e], h1, ?_, ?_⟩
    · intro q hq
      have := h2 q hq
      exact ⟨(hmem q).1 this.1, this.2⟩
    · intro q hq he ha hn
      exact h3 q ((hmem q).2 hq) he ha hn

/-- **C08.** On any built tree the in-sphere query terminates without out-of-range access; the answer has
no repetition, contains only stored eligible points with squared distance below `(1 + 2e-6) r²`, and
contains every stored eligible point at distance below `r`. -/
theorem C08_in_sphere_sound_complete (P : PointStore ℝ) (ln : Links) (h : RealTree P ln) (elig : Nat → Bool)
    (x : Nat → ℝ) (r : ℝ) (hr : 0 ≤ r) :
    ∃ l, sphereQuery Rounding.exact P ln elig (inSphereTest r) x r = some l ∧ l.Nodup ∧
      (∀ q ∈ l, q < P.num ∧ elig q = true ∧ euclidSq P.dim x (P.pts q) < (1 + 2e-6) * r ^ 2) ∧
      (∀ q, q < P.num → elig q = true → euclid P.dim x (P.pts q) < r → q ∈ l) := by
  obtain ⟨l, e, h1, h2, h3⟩ := sphereQuery_spec h elig (inSphereTest r) x hr
  refine ⟨l, e, h1, ?_, ?_⟩
  · intro q hq
    obtain ⟨a, b, c⟩ := h2 q hq
    refine ⟨a, b, ?_⟩
    unfold inSphereTest at c
    rw [pow_two, ← mul_assoc]; exact c
  · intro q hq he hn
    have h4 : euclidSq P.dim x (P.pts q) < r * r := by
      have hpos : 0 < r := lt_of_le_of_lt (Real.sqrt_nonneg _) hn
      have := (Real.sqrt_lt' hpos).1 hn
      rwa [pow_two] at this
    refine h3 q hq he ?_ h4
    unfold inSphereTest
    have : 0 ≤ r * r := mul_self_nonneg r
    nlinarith

/-- **C08, absolute-tolerance overload** (with a maximum index): same claim with `r² + 1e-6`. -/
theorem C08_in_sphere_max_index (P : PointStore ℝ) (ln : Links) (h : RealTree P ln) (maxIndex : Nat)
    (x : Nat → ℝ) (r : ℝ) (hr : 0 ≤ r) :
    ∃ l, sphereQuery Rounding.exact P ln (fun i => decide (i ≤ maxIndex)) (inSphereTestAbs r) x r = some l ∧ l.Nodup ∧
      (∀ q ∈ l, q < P.num ∧ q ≤ maxIndex ∧ euclidSq P.dim x (P.pts q) < r ^ 2 + 1e-6) ∧
      (∀ q, q < P.num → q ≤ maxIndex → euclid P.dim x (P.pts q) < r → q ∈ l) := by
  obtain ⟨l, e, h1, h2, h3⟩ := sphereQuery_spec h (fun i => decide (i ≤ maxIndex)) (inSphereTestAbs r) x hr
  refine ⟨l, e, h1, ?_, ?_⟩
  · intro q hq
    obtain ⟨a, b, c⟩ := h2 q hq
    refine ⟨a, by simpa using b, ?_⟩
    unfold inSphereTestAbs at c
    rw [pow_two]; exact c
  · intro q hq he hn
    have h4 : euclidSq P.dim x (P.pts q) < r * r := by
      have hpos : 0 < r := lt_of_le_of_lt (Real.sqrt_nonneg _) hn
      have := (Real.sqrt_lt' hpos).1 hn
      rwa [pow_two] at this
    refine h3 q hq (by simpa using he) ?_ h4
    unfold inSphereTestAbs
    linarith [show (0 : ℝ) < 1e-6 by norm_num]

-- non-vacuity: a tree and a ball containing exactly one of its points
example : ∃ l, sphereQuery Rounding.exact (twoPoints 1 2) linkRight (fun _ => true) (inSphereTest (1 / 2)) (fun _ => 1) (1 / 2) = some l ∧
    0 ∈ l ∧ 1 ∉ l := by
  obtain ⟨l, e, _, h2, h3⟩ := C08_in_sphere_sound_complete (twoPoints 1 2) linkRight (twoPoints_right (by norm_num))
    (fun _ => true) (fun _ => 1) (1 / 2) (by norm_num)
  refine ⟨l, e, h3 0 (by decide) rfl ?_, fun hc => ?_⟩
  · simp [euclid, twoPoints, upd]
  · have := (h2 1 hc).2.2
    simp [euclidSq, twoPoints, upd] at this
    norm_num at this

/-! ## C09 -/

/-- **C09 is false of the code.** Inserting the same two points in the two orders gives trees whose
in-sphere answers differ for the same query (centre 0, radius 1): the acceptance test uses the enlarged
radius `r √(1+2e-6)` but subtrees are pruned with `r`. -/
theorem C09_in_sphere_tree_dependent_false :
    ∃ (P Q : PointStore ℝ) (lnP lnQ : Links) (x : Nat → ℝ) (r : ℝ) (lP lQ : List Nat),
      RealTree P lnP ∧ RealTree Q lnQ ∧ P.num = Q.num ∧ P.dim = Q.dim ∧
      (∀ i, i < P.num → Q.pts (1 - i) = P.pts i) ∧ 0 ≤ r ∧
      sphereQuery Rounding.exact P lnP (fun _ => true) (inSphereTest r) x r = some lP ∧
      sphereQuery Rounding.exact Q lnQ (fun _ => true) (inSphereTest r) x r = some lQ ∧
      lP.map P.pts = [P.pts 0, P.pts 1] ∧ lQ.map Q.pts = [P.pts 1] := by
  refine ⟨twoPoints (1 + 5e-7) 1, twoPoints 1 (1 + 5e-7), linkLeft, linkRight, fun _ => 0, 1, [0, 1], [0],
    twoPoints_left (by norm_num), twoPoints_right (by norm_num), rfl, rfl, ?_, by norm_num, ?_, ?_, rfl, rfl⟩
  · intro i hi
    have hi : i < 2 := hi
    interval_cases i <;> simp [twoPoints, upd]
  · simp [sphereQuery, linkLeft, twoPoints, seedsInSphere, upd, dstSq, Rounding.exact, inSphereTest, nextDim]
    norm_num
  · simp [sphereQuery, linkRight, twoPoints, seedsInSphere, upd, dstSq, Rounding.exact, inSphereTest]
    norm_num

/-- **C09 (partial).** For two built trees whose contents correspond under an index map, the answers
agree on every point outside the shell `r ≤ dist`, `dist² < (1+2e-6) r²`. -/
theorem C09_in_sphere_agree_partial (P Q : PointStore ℝ) (lnP lnQ : Links) (hP : RealTree P lnP) (hQ : RealTree Q lnQ)
    (f : Nat → Nat) (hf : ∀ i, i < P.num → f i < Q.num ∧ Q.pts (f i) = P.pts i) (hdim : P.dim = Q.dim)
    (x : Nat → ℝ) (r : ℝ) (hr : 0 ≤ r) :
    ∃ lP lQ, sphereQuery Rounding.exact P lnP (fun _ => true) (inSphereTest r) x r = some lP ∧
      sphereQuery Rounding.exact Q lnQ (fun _ => true) (inSphereTest r) x r = some lQ ∧
      ∀ i, i < P.num → ¬ (r ≤ euclid P.dim x (P.pts i) ∧ euclidSq P.dim x (P.pts i) < (1 + 2e-6) * r ^ 2) → (i ∈ lP ↔ f i ∈ lQ) := by
  obtain ⟨lP, eP, _, p2, p3⟩ := C08_in_sphere_sound_complete P lnP hP (fun _ => true) x r hr
  obtain ⟨lQ, eQ, _, q2, q3⟩ := C08_in_sphere_sound_complete Q lnQ hQ (fun _ => true) x r hr
  refine ⟨lP, lQ, eP, eQ, ?_⟩
  intro i hi hsh
  obtain ⟨hfi, hpt⟩ := hf i hi
  constructor
  · intro h
    refine q3 (f i) hfi rfl ?_
    rw [hpt, ← hdim]
    by_contra hc
    exact hsh ⟨not_lt.1 hc, (p2 i h).2.2⟩
  · intro h
    refine p3 i hi rfl ?_
    by_contra hc
    have := (q2 (f i) h).2.2
    rw [hpt, ← hdim] at this
    exact hsh ⟨not_lt.1 hc, this⟩

end VoroCrust
