import Verif.Model.Spokes
import Verif.Props.Sliver
import Mathlib.Tactic.Linarith
import Mathlib.Tactic.FieldSimp

/-! # Spokes: C88, and neighbours found with them: C89 -/

namespace VoroCrust

open Classical

/-! ## Specification -/

/-- The point at distance `t` along a spoke. -/
def along (o u : Nat → ℝ) (t : ℝ) : Nat → ℝ := fun d => o d + t * u d

/-- The direction has length at most one. -/
def UnitDir (n : Nat) (u : Nat → ℝ) : Prop := euclid n u (fun _ => 0) ≤ 1

/-- `o` is in the cell of `c` among the seeds that count. -/
def InCell (P : PointStore ℝ) (E : Nat → Prop) (c o : Nat → ℝ) : Prop := ∀ q, q < P.num → E q → euclid P.dim o c ≤ euclid P.dim o (P.pts q)

/-- The spoke ends at distance `t` on the boundary between `c` and seed `nb`: equally far from both, nearer to `nb` beyond, and no seed is nearer up to a tolerance of `1e-8` in the direction. -/
structure EndsAt (P : PointStore ℝ) (E : Nat → Prop) (c o u : Nat → ℝ) (nb : Nat) (t : ℝ) : Prop where
  valid : nb < P.num
  counts : E nb
  nonneg : 0 ≤ t
  equal : euclid P.dim (along o u t) c = euclid P.dim (along o u t) (P.pts nb)
  beyond : ∀ s, t < s → euclid P.dim (along o u s) (P.pts nb) < euclid P.dim (along o u s) c
  inside : ∀ q, q < P.num → E q → ∀ s, 0 ≤ s → s ≤ t → euclid P.dim (along o u s) c ^ 2 ≤ euclid P.dim (along o u s) (P.pts q) ^ 2 + 2e-8 * s

/-- The spoke never leaves the cell, up to the tolerance. -/
def Unbounded (P : PointStore ℝ) (E : Nat → Prop) (c o u : Nat → ℝ) : Prop :=
  ∀ q, q < P.num → E q → ∀ s, 0 ≤ s → euclid P.dim (along o u s) c ^ 2 ≤ euclid P.dim (along o u s) (P.pts q) ^ 2 + 2e-8 * s

/-! ## Distances along a spoke -/

theorem sumDim_eq (f : Nat → ℝ) (n : Nat) : sumDim f n = ∑ d ∈ Finset.range n, f d := by
  induction n with
  | zero => simp [sumDim]
  | succ n ih => rw [sumDim, ih, Finset.sum_range_succ]

/-- `dot_o` before it is clamped. -/
noncomputable def dotO' (c p o : Nat → ℝ) (dim : Nat) : ℝ := sumDim (fun d => (0.5 * (p d + c d) - o d) * (p d - c d)) dim

theorem along_diff (c p o u : Nat → ℝ) (n : Nat) (t : ℝ) :
    euclid n (along o u t) p ^ 2 - euclid n (along o u t) c ^ 2 = 2 * (dotO' c p o n - t * dotE c p u n) := by
  rw [euclid_sq, euclid_sq]
  unfold dotO' dotE
  rw [sumDim_eq, sumDim_eq, Finset.mul_sum, ← Finset.sum_sub_distrib, ← Finset.sum_sub_distrib, Finset.mul_sum]
  refine Finset.sum_congr rfl fun d _ => ?_
  unfold along
  ring

theorem along_zero (o u : Nat → ℝ) : along o u 0 = o := by funext d; simp [along]

theorem along_step (n : Nat) {o u : Nat → ℝ} (hu : UnitDir n u) {b : ℝ} (hb : 0 ≤ b) : euclid n o (along o u b) ≤ b := by
  have h1 : euclid n o (along o u b) ^ 2 = b ^ 2 * euclid n u (fun _ => 0) ^ 2 := by
    rw [euclid_sq, euclid_sq, Finset.mul_sum]
    refine Finset.sum_congr rfl fun d _ => ?_
    unfold along; ring
  have h2 : euclid n u (fun _ => 0) ^ 2 ≤ 1 := by
    have := euclid_nonneg n u (fun _ => 0)
    unfold UnitDir at hu
    nlinarith
  have h3 := euclid_nonneg n o (along o u b)
  refine abs_le_of_sq_le_sq' ?_ hb |>.2
  rw [h1]
  nlinarith [sq_nonneg b]

theorem coord_le {n d : Nat} (hd : d < n) (x y : Nat → ℝ) : |x d - y d| ≤ euclid n x y := by
  refine Real.abs_le_sqrt ?_
  exact Finset.single_le_sum (f := fun d => (x d - y d) ^ 2) (fun _ _ => sq_nonneg _) (Finset.mem_range.2 hd)

/-- A seed too far from the origin does not cut the spoke. -/
theorem far_no_cut {n d : Nat} (hd : d < n) {c p o u : Nat → ℝ} (hu : UnitDir n u) {b : ℝ} (hb : 0 ≤ b) (h : 2 * (b + euclid n o c) ≤ |p d - o d|) (he : 0 < dotE c p u n) :
    b ≤ dotO c p o n / dotE c p u n := by
  have h1 := coord_le hd p o
  have h2 := along_step n (o := o) hu hb
  have h3 := euclid_triangle n p (along o u b) o
  have h4 := euclid_triangle n (along o u b) o c
  rw [euclid_comm n (along o u b) o] at h3 h4
  rw [euclid_comm n p (along o u b)] at h3
  have h5 : euclid n (along o u b) c ≤ euclid n (along o u b) p := by linarith [euclid_nonneg n o c]
  have h6 : euclid n (along o u b) c ^ 2 ≤ euclid n (along o u b) p ^ 2 := by nlinarith [euclid_nonneg n (along o u b) c]
  have h7 := along_diff c p o u n b
  rw [le_div_iff₀ he]
  have h8 : dotO' c p o n ≤ dotO c p o n := by
    unfold dotO dotO'
    simp only
    split_ifs with hs
    · exact hs.le
    · exact le_refl _
  linarith

theorem dotO_nonneg (c p o : Nat → ℝ) (n : Nat) : 0 ≤ dotO c p o n := by
  unfold dotO
  simp only
  split_ifs with hs
  · exact le_refl _
  · exact not_lt.1 hs

/-! ## The search is exhaustive -/

section
variable {P : PointStore ℝ} {ln : Links} {elig : Nat → Bool} {c o u : Nat → ℝ}

/-- Seeds that can cut the spoke. -/
noncomputable def cutElig (P : PointStore ℝ) (elig : Nat → Bool) (c u : Nat → ℝ) (q : Nat) : Bool := elig q && decide (1e-8 < dotE c (P.pts q) u P.dim)

/-- Where a seed cuts the spoke. -/
noncomputable def cutDist (P : PointStore ℝ) (c o u : Nat → ℝ) (q : Nat) : ℝ := dotO c (P.pts q) o P.dim / dotE c (P.pts q) u P.dim

theorem cutElig_iff {q : Nat} : cutElig P elig c u q = true ↔ elig q = true ∧ 1e-8 < dotE c (P.pts q) u P.dim := by simp [cutElig]

theorem cutDist_nonneg {q : Nat} (h : cutElig P elig c u q = true) : 0 ≤ cutDist P c o u q :=
  div_nonneg (dotO_nonneg _ _ _ _) (le_trans (by norm_num) (cutElig_iff.1 h).2.le)

theorem visit_trim (i : Nat) (r : Nat × WithTop ℝ) : Best (cutElig P elig c u) (cutDist P c o u) True [i] r (trimVisit P elig c o u i r) := by
  unfold trimVisit
  simp only
  by_cases hc : elig i = true ∧ (1e-8 < |dotE c (P.pts i) u P.dim| ∧ 0 < dotE c (P.pts i) u P.dim) ∧ -1e-8 < dotO c (P.pts i) o P.dim / dotE c (P.pts i) u P.dim ∧
      ((dotO c (P.pts i) o P.dim / dotE c (P.pts i) u P.dim : ℝ) : WithTop ℝ) < r.2
  · rw [if_pos hc]
    have he : cutElig P elig c u i = true := cutElig_iff.2 ⟨hc.1, by have := hc.2.1.1; rwa [abs_of_pos hc.2.1.2] at this⟩
    refine ⟨hc.2.2.2.le, ?_, Or.inr ⟨by simp, he, rfl, fun _ => hc.2.2.2⟩⟩
    intro q hq _; simp at hq; subst hq; exact le_refl _
  · rw [if_neg hc]
    refine ⟨le_refl _, ?_, Or.inl rfl⟩
    intro q hq he
    simp at hq; subst hq
    by_contra hn
    push Not at hn
    have h0 := cutDist_nonneg (o := o) he
    obtain ⟨h1, h2⟩ := cutElig_iff.1 he
    have h3 : 0 < dotE c (P.pts q) u P.dim := lt_trans (by norm_num) h2
    exact hc ⟨h1, ⟨by rw [abs_of_pos h3]; exact h2, h3⟩, lt_of_lt_of_le (by norm_num) h0, hn⟩

theorem Best.nonneg {S : List Nat} {strict : Prop} {r0 r : Nat × WithTop ℝ} (h : 0 ≤ r0.2) (hb : Best (cutElig P elig c u) (cutDist P c o u) strict S r0 r) : 0 ≤ r.2 := by
  rcases hb.attained with h' | ⟨_, he, e, _⟩
  · rw [h']; exact h
  · rw [e]; exact WithTop.coe_le_coe.2 (cutDist_nonneg he)

theorem not_inReach {d : Nat} (hd : d < P.dim) (hu : UnitDir P.dim u) {b : WithTop ℝ} (hb : 0 ≤ b) {H tol : ℝ} (ht : 0 ≤ tol) (h : ¬ inReach H (euclid P.dim o c) tol b) {q : Nat}
    (hq : H ≤ |P.pts q d - o d|) (he : cutElig P elig c u q = true) : b ≤ (cutDist P c o u q : WithTop ℝ) := by
  cases b with
  | top => exact absurd trivial h
  | coe b =>
    have h1 : ¬ H < 2 * (b + euclid P.dim o c) + tol := h
    refine WithTop.coe_le_coe.2 (far_no_cut hd hu (WithTop.coe_le_coe.1 hb) ?_ (lt_trans (by norm_num) (cutElig_iff.1 he).2))
    linarith

theorem kdTrim_spec (hlt : P.lt = realLt) (hu : UnitDir P.dim u) (fuel : Nat) (t : KT) (d i : Nat) (r : Nat × WithTop ℝ) (hd : d < P.dim)
    (hrep : Rep ln.left ln.right i t) (hv : ∀ k ∈ t.idx, k < P.num) (hnd : t.idx.Nodup) (ho : Ordered P d t)
    (hf : t.idx.length ≤ fuel) (hb : 0 ≤ r.2) :
    ∃ r', kdTrim P ln elig c o u (euclid P.dim o c) fuel d i r = some r' ∧ Best (cutElig P elig c u) (cutDist P c o u) True t.idx r r' := by
  induction t generalizing fuel d i r with
  | nil => simp [Rep] at hrep
  | node j tl tr ihl ihr =>
    simp only [Rep] at hrep
    obtain ⟨rfl, hl, hr⟩ := hrep
    simp only [Ordered] at ho
    obtain ⟨ho1, ho2, ho3, ho4⟩ := ho
    simp only [KT.idx, List.length_cons, List.length_append] at hf
    obtain ⟨f, rfl⟩ : ∃ f, fuel = f + 1 := ⟨fuel - 1, by omega⟩
    have hi : i < P.num := hv i (by simp [KT.idx])
    have hvl : ∀ k ∈ tl.idx, k < P.num := fun k hk => hv k (by simp [KT.idx, hk])
    have hvr : ∀ k ∈ tr.idx, k < P.num := fun k hk => hv k (by simp [KT.idx, hk])
    simp only [KT.idx, List.nodup_cons, List.mem_append, not_or] at hnd
    obtain ⟨⟨hil, hir⟩, hnd⟩ := hnd
    obtain ⟨hndl, hndr, -⟩ := List.nodup_append.1 hnd
    have hd' := nextDim_lt hd
    rw [kdTrim]
    simp only [hi, hd, and_self, if_true]
    have hvis := visit_trim (P := P) (elig := elig) (c := c) (o := o) (u := u) i r
    set r1 := trimVisit P elig c o u i r with hr1
    have hb1 : 0 ≤ r1.2 := hvis.nonneg hb
    rw [hlt] at ho1 ho2
    simp only [realLt, decide_eq_true_eq, decide_eq_false_iff_not, not_lt] at ho1 ho2
    set H := |P.pts i d - o d| with hH
    have hleft : ∀ q ∈ tl.idx, ¬ o d < P.pts i d → H ≤ |P.pts q d - o d| := by
      intro q hq hx
      have := ho1 q hq
      rw [hH, abs_of_nonpos (by linarith [not_lt.1 hx]), abs_of_nonpos (by linarith [not_lt.1 hx])]
      linarith
    have hright : ∀ q ∈ tr.idx, ¬ P.pts i d < o d → H ≤ |P.pts q d - o d| := by
      intro q hq hx
      have := ho2 q hq
      rw [hH, abs_of_nonneg (by linarith [not_lt.1 hx]), abs_of_nonneg (by linarith [not_lt.1 hx])]
      linarith
    have skipL : ∀ (b : WithTop ℝ) (tol : ℝ), 0 ≤ b → 0 ≤ tol → ¬ (ln.left i ≠ i ∧ (inReach H (euclid P.dim o c) tol b ∨ o d < P.pts i d)) →
        ∀ q ∈ tl.idx, cutElig P elig c u q = true → b ≤ (cutDist P c o u q : WithTop ℝ) := by
      intro b tol hbb htol hn q hq he
      rcases hl with ⟨h1, _⟩ | ⟨h1, _⟩
      · simp [h1, KT.idx] at hq
      · have h2 : ¬ (inReach H (euclid P.dim o c) tol b ∨ o d < P.pts i d) := fun h => hn ⟨h1, h⟩
        push Not at h2
        exact not_inReach hd hu hbb htol h2.1 (hleft q hq (not_lt.2 h2.2)) he
    have skipR : ∀ (b : WithTop ℝ) (tol : ℝ), 0 ≤ b → 0 ≤ tol → ¬ (ln.right i ≠ i ∧ (inReach H (euclid P.dim o c) tol b ∨ P.pts i d < o d)) →
        ∀ q ∈ tr.idx, cutElig P elig c u q = true → b ≤ (cutDist P c o u q : WithTop ℝ) := by
      intro b tol hbb htol hn q hq he
      rcases hr with ⟨h1, _⟩ | ⟨h1, _⟩
      · simp [h1, KT.idx] at hq
      · have h2 : ¬ (inReach H (euclid P.dim o c) tol b ∨ P.pts i d < o d) := fun h => hn ⟨h1, h⟩
        push Not at h2
        exact not_inReach hd hu hbb htol h2.1 (hright q hq (not_lt.2 h2.2)) he
    have recL : ln.left i ≠ i → ∀ r : Nat × WithTop ℝ, 0 ≤ r.2 → ∃ r', kdTrim P ln elig c o u (euclid P.dim o c) f (nextDim P.dim d) (ln.left i) r = some r' ∧
        Best (cutElig P elig c u) (cutDist P c o u) True tl.idx r r' := by
      intro hne r hbr
      rcases hl with ⟨_, h1⟩ | ⟨_, h1⟩
      · exact absurd h1 hne
      · exact ihl f _ _ r hd' h1 hvl hndl ho3 (by omega) hbr
    have recR : ln.right i ≠ i → ∀ r : Nat × WithTop ℝ, 0 ≤ r.2 → ∃ r', kdTrim P ln elig c o u (euclid P.dim o c) f (nextDim P.dim d) (ln.right i) r = some r' ∧
        Best (cutElig P elig c u) (cutDist P c o u) True tr.idx r r' := by
      intro hne r hbr
      rcases hr with ⟨_, h1⟩ | ⟨_, h1⟩
      · exact absurd h1 hne
      · exact ihr f _ _ r hd' h1 hvr hndr ho4 (by omega) hbr
    have t8 : (0 : ℝ) ≤ 1e-8 := by norm_num
    have t10 : (0 : ℝ) ≤ 1e-10 := by norm_num
    by_cases hR : ln.right i ≠ i ∧ (inReach H (euclid P.dim o c) 1e-8 r1.2 ∨ P.pts i d < o d)
    · by_cases hL : ln.left i ≠ i ∧ (inReach H (euclid P.dim o c) 1e-8 r1.2 ∨ o d < P.pts i d)
      · rw [if_pos ⟨hR, hL⟩]
        by_cases hx : P.pts i d < o d
        · rw [if_pos hx]
          obtain ⟨r2, e2, hB2⟩ := recR hR.1 r1 hb1
          have hb2 := hB2.nonneg hb1
          simp only [e2]
          by_cases hL2 : inReach H (euclid P.dim o c) 1e-10 r2.2
          · rw [if_pos hL2]
            obtain ⟨r3, e3, hB3⟩ := recL hL.1 r2 hb2
            exact ⟨r3, e3, ((hvis.trans hB2).trans hB3).of_subset (by first | exact kt_mem_rl _ _ _ | exact kt_mem_lr _ _ _)⟩
          · rw [if_neg hL2]
            exact ⟨r2, rfl, ((hvis.trans hB2).skip (skipL _ _ hb2 t10 (fun h => h.2.elim hL2 (not_lt.2 hx.le)))).of_subset (by first | exact kt_mem_rl _ _ _ | exact kt_mem_lr _ _ _)⟩
        · rw [if_neg hx]
          obtain ⟨r2, e2, hB2⟩ := recL hL.1 r1 hb1
          have hb2 := hB2.nonneg hb1
          simp only [e2]
          by_cases hR2 : inReach H (euclid P.dim o c) 1e-10 r2.2
          · rw [if_pos hR2]
            obtain ⟨r3, e3, hB3⟩ := recR hR.1 r2 hb2
            exact ⟨r3, e3, ((hvis.trans hB2).trans hB3).of_subset (by first | exact kt_mem_rl _ _ _ | exact kt_mem_lr _ _ _)⟩
          · rw [if_neg hR2]
            exact ⟨r2, rfl, ((hvis.trans hB2).skip (skipR _ _ hb2 t10 (fun h => h.2.elim hR2 hx))).of_subset (by first | exact kt_mem_rl _ _ _ | exact kt_mem_lr _ _ _)⟩
      · rw [if_neg (fun h => hL h.2), if_pos hR]
        obtain ⟨r2, e2, hB2⟩ := recR hR.1 r1 hb1
        exact ⟨r2, e2, ((hvis.skip (skipL _ _ hb1 t8 hL)).trans hB2).of_subset (by first | exact kt_mem_rl _ _ _ | exact kt_mem_lr _ _ _)⟩
    · rw [if_neg (fun h => hR h.1), if_neg hR]
      by_cases hL : ln.left i ≠ i ∧ (inReach H (euclid P.dim o c) 1e-8 r1.2 ∨ o d < P.pts i d)
      · rw [if_pos hL]
        obtain ⟨r2, e2, hB2⟩ := recL hL.1 r1 hb1
        exact ⟨r2, e2, ((hvis.skip (skipR _ _ hb1 t8 hR)).trans hB2).of_subset (by first | exact kt_mem_rl _ _ _ | exact kt_mem_lr _ _ _)⟩
      · rw [if_neg hL]
        exact ⟨r1, rfl, ((hvis.skip (skipR _ _ hb1 t8 hR)).skip (skipL _ _ hb1 t8 hL)).of_subset (by first | exact kt_mem_rl _ _ _ | exact kt_mem_lr _ _ _)⟩

end

/-- What a search over all seeds gives. -/
def CutResult (P : PointStore ℝ) (elig : Nat → Bool) (c o u : Nat → ℝ) (r0 r : Nat × WithTop ℝ) : Prop :=
  (r.1 < P.num ∧ cutElig P elig c u r.1 = true ∧ r.2 = (cutDist P c o u r.1 : WithTop ℝ) ∧ r.2 < r0.2 ∧ ∀ q, q < P.num → cutElig P elig c u q = true → cutDist P c o u r.1 ≤ cutDist P c o u q) ∨
    (r = r0 ∧ ∀ q, q < P.num → cutElig P elig c u q = true → r0.2 ≤ (cutDist P c o u q : WithTop ℝ))

theorem trimRoot_spec {P : PointStore ℝ} {ln : Links} (h : RealTree P ln) (elig : Nat → Bool) (c o u : Nat → ℝ) (hu : UnitDir P.dim u) (r0 : Nat × WithTop ℝ) (hb : 0 ≤ r0.2) :
    ∃ r, trimRoot P ln elig c o u r0 = some r ∧ CutResult P elig c o u r0 r := by
  obtain ⟨t, hok, hne, hmem⟩ := h.ok
  rcases hok.root with ⟨_, h1⟩ | ⟨i, hi, hrep⟩
  · exact absurd h1 hne
  have hf := length_le_of_nodup_lt hok.nodup hok.valid
  obtain ⟨r, e, hB⟩ := kdTrim_spec (elig := elig) (c := c) (o := o) h.1 hu P.num t 0 i r0 h.2.1 hrep hok.valid hok.nodup hok.ordered hf hb
  refine ⟨r, ?_, ?_⟩
  · unfold trimRoot
    rw [hi]
    simp only [dstOf_exact]
    exact e
  · rcases hB.attained with h' | ⟨h1, h2, h3, h4⟩
    · right
      refine ⟨h', fun q hq he => ?_⟩
      rw [← h']
      exact hB.min q ((hmem q).2 hq) he
    · left
      refine ⟨(hmem _).1 h1, h2, h3, h4 trivial, fun q hq he => ?_⟩
      have := hB.min q ((hmem q).2 hq) he
      rw [h3] at this
      exact WithTop.coe_le_coe.1 this

/-- What `trim_spoke` gives for a spoke without a bound. -/
def SpokeResult (P : PointStore ℝ) (elig : Nat → Bool) (c o u : Nat → ℝ) (r : Nat × WithTop ℝ) : Prop :=
  (r.1 < P.num ∧ cutElig P elig c u r.1 = true ∧ r.2 = (cutDist P c o u r.1 : WithTop ℝ) ∧ ∀ q, q < P.num → cutElig P elig c u q = true → cutDist P c o u r.1 ≤ cutDist P c o u q) ∨
    (r = (P.num, ⊤) ∧ ∀ q, q < P.num → cutElig P elig c u q = false)

theorem CutResult.unbounded {P : PointStore ℝ} {elig : Nat → Bool} {c o u : Nat → ℝ} {nb : Nat} {r : Nat × WithTop ℝ} (h : CutResult P elig c o u (nb, ⊤) r)
    (hn : nb = P.num ∨ ∃ q, q < P.num ∧ cutElig P elig c u q = true) : SpokeResult P elig c o u r := by
  rcases h with ⟨h1, h2, h3, -, h5⟩ | ⟨h1, h2⟩
  · exact Or.inl ⟨h1, h2, h3, h5⟩
  · have hno : ∀ q, q < P.num → cutElig P elig c u q = false := by
      intro q hq
      by_contra hc
      have := h2 q hq (by simpa using hc)
      simp at this
    rcases hn with rfl | ⟨q, hq, he⟩
    · exact Or.inr ⟨h1, hno⟩
    · rw [hno q hq] at he; simp at he

theorem trimSpoke_spec {P : PointStore ℝ} {ln : Links} (h : RealTree P ln) (mark : Nat → Bool) (c : Nat → ℝ) (involved : List Nat) (o u : Nat → ℝ) (hu : UnitDir P.dim u) :
    ∃ r, trimSpoke P ln mark c involved o u (P.num, ⊤) = some r ∧ SpokeResult P (trimElig mark involved) c o u r := by
  obtain ⟨r1, e1, h1⟩ := trimRoot_spec h (trimElig mark involved) c o u hu (P.num, ⊤) le_top
  have hs1 := h1.unbounded (Or.inl rfl)
  unfold trimSpoke
  rw [e1]
  simp only
  by_cases hi : involved = []
  · rw [if_pos hi]; exact ⟨r1, rfl, hs1⟩
  · rw [if_neg hi]
    obtain ⟨nb, b⟩ := r1
    cases b with
    | top =>
      have hnb : nb = P.num := by
        rcases hs1 with ⟨-, -, e, -⟩ | ⟨e, -⟩
        · simp at e
        · exact (Prod.mk.inj e).1
      obtain ⟨r2, e2, h2⟩ := trimRoot_spec h (trimElig mark involved) c o u hu (nb, ⊤) le_top
      exact ⟨r2, e2, h2.unbounded (Or.inl hnb)⟩
    | coe b =>
      have hex : ∃ q, q < P.num ∧ cutElig P (trimElig mark involved) c u q = true := by
        rcases hs1 with ⟨h1, h2, -⟩ | ⟨e, -⟩
        · exact ⟨nb, h1, h2⟩
        · simp at e
      obtain ⟨ic, hc, ec, -⟩ := C06_closest_is_exhaustive P ln h mark (fun d => o d + b * u d) false ⊤ le_top
      obtain ⟨r2, e2, h2⟩ := trimRoot_spec h (trimElig mark involved) c o u hu (nb, ⊤) le_top
      show ∃ r, (match closestQuery Rounding.exact P ln mark (fun d => o d + b * u d) false ⊤ with
        | none => none
        | some (ic, hc) => if ic ∉ involved ∧ hc < ((dstOf Rounding.exact (fun d => o d + b * u d) c P.dim - 1e-6 : ℝ) : WithTop ℝ) then trimRoot P ln (trimElig mark involved) c o u (nb, ⊤)
          else some (nb, (b : WithTop ℝ))) = some r ∧ _
      rw [ec]
      simp only
      by_cases hv : ic ∉ involved ∧ hc < ((dstOf Rounding.exact (fun d => o d + b * u d) c P.dim - 1e-6 : ℝ) : WithTop ℝ)
      · rw [if_pos hv]; exact ⟨r2, e2, h2.unbounded (Or.inr hex)⟩
      · rw [if_neg hv]; exact ⟨_, rfl, hs1⟩

/-! ## C88 -/

theorem inCell_dotO {P : PointStore ℝ} {E : Nat → Prop} {c o : Nat → ℝ} (h : InCell P E c o) {q : Nat} (hq : q < P.num) (he : E q) :
    0 ≤ dotO' c (P.pts q) o P.dim ∧ dotO c (P.pts q) o P.dim = dotO' c (P.pts q) o P.dim := by
  have h1 := along_diff c (P.pts q) o (fun _ => 0) P.dim 0
  rw [along_zero] at h1
  have h2 := h q hq he
  have h3 := euclid_nonneg P.dim o c
  have h4 : 0 ≤ dotO' c (P.pts q) o P.dim := by nlinarith
  refine ⟨h4, ?_⟩
  unfold dotO dotO' at *
  simp only
  rw [if_neg (not_lt.2 h4)]

/-- **C88.** For every tree, every cell seed (in the tree or not), every choice of marked and involved seeds and every spoke that starts in the cell, the spoke is cut where it leaves the cell of its
seed among the marked seeds that are not involved: the end is equally far from the seed and from the neighbour given, beyond it the neighbour is nearer, and up to the end no seed is nearer, except that
seeds within `1e-8` of being across the direction are not looked at.  If no neighbour is given the spoke stays in the cell, up to the same tolerance. -/
theorem C88_trim_spoke (P : PointStore ℝ) (ln : Links) (h : RealTree P ln) (mark : Nat → Bool) (c : Nat → ℝ) (involved : List Nat) (o u : Nat → ℝ) (hu : UnitDir P.dim u)
    (hc : InCell P (fun q => mark q = true ∧ q ∉ involved) c o) :
    ∃ nb len, trimSpoke P ln mark c involved o u (P.num, ⊤) = some (nb, len) ∧
      ((∃ t : ℝ, len = (t : WithTop ℝ) ∧ EndsAt P (fun q => mark q = true ∧ q ∉ involved) c o u nb t) ∨
        (len = ⊤ ∧ nb = P.num ∧ Unbounded P (fun q => mark q = true ∧ q ∉ involved) c o u)) := by
  obtain ⟨⟨nb, len⟩, e, hr⟩ := trimSpoke_spec h mark c involved o u hu
  refine ⟨nb, len, e, ?_⟩
  have hE : ∀ q, trimElig mark involved q = true ↔ mark q = true ∧ q ∉ involved := by intro q; simp [trimElig]
  rcases hr with ⟨h1, h2, h3, h4⟩ | ⟨h1, h2⟩
  · left
    obtain ⟨g1, g2⟩ := cutElig_iff.1 h2
    have g1' := (hE nb).1 g1
    have gp : 0 < dotE c (P.pts nb) u P.dim := lt_trans (by norm_num) g2
    obtain ⟨s1, s2⟩ := inCell_dotO hc h1 g1'
    have ht : cutDist P c o u nb * dotE c (P.pts nb) u P.dim = dotO' c (P.pts nb) o P.dim := by
      unfold cutDist; rw [s2, div_mul_cancel₀ _ gp.ne']
    refine ⟨cutDist P c o u nb, h3, h1, g1', cutDist_nonneg h2, ?_, ?_, ?_⟩
    · have := along_diff c (P.pts nb) o u P.dim (cutDist P c o u nb)
      rw [ht, sub_self, mul_zero] at this
      exact (pow_left_inj₀ (euclid_nonneg _ _ _) (euclid_nonneg _ _ _) two_ne_zero).1 (by linarith)
    · intro s hs
      have := along_diff c (P.pts nb) o u P.dim s
      have hm := mul_lt_mul_of_pos_right hs gp
      rw [ht] at hm
      exact lt_of_pow_lt_pow_left₀ 2 (euclid_nonneg _ _ _) (by linarith)
    · intro q hq he s hs hst
      have := along_diff c (P.pts q) o u P.dim s
      obtain ⟨q1, q2⟩ := inCell_dotO hc hq he
      by_cases hqe : 1e-8 < dotE c (P.pts q) u P.dim
      · have h5 := h4 q hq (cutElig_iff.2 ⟨(hE q).2 he, hqe⟩)
        have hqp : 0 < dotE c (P.pts q) u P.dim := lt_trans (by norm_num) hqe
        have h6 : s ≤ dotO c (P.pts q) o P.dim / dotE c (P.pts q) u P.dim := hst.trans h5
        rw [le_div_iff₀ hqp, q2] at h6
        linarith
      · have := mul_le_mul_of_nonneg_left (not_lt.1 hqe) hs
        linarith
  · right
    obtain ⟨rfl, rfl⟩ := Prod.mk.inj h1
    refine ⟨rfl, rfl, ?_⟩
    intro q hq he s hs
    have := along_diff c (P.pts q) o u P.dim s
    obtain ⟨q1, q2⟩ := inCell_dotO hc hq he
    have h5 := h2 q hq
    have hqe : ¬ 1e-8 < dotE c (P.pts q) u P.dim := by
      intro hqe
      rw [cutElig_iff.2 ⟨(hE q).2 he, hqe⟩] at h5
      simp at h5
    have := mul_le_mul_of_nonneg_left (not_lt.1 hqe) hs
    linarith

/-- The hypotheses of C88 can be met: seeds at 0 and 2, a spoke from the first one in the direction of the second one ends at 1. -/
example : ∃ t : ℝ, trimSpoke (twoPoints 0 2) linkRight (fun _ => true) (fun _ => 0) [0] (fun _ => 0) (fun _ => 1) (2, ⊤) = some (1, (t : WithTop ℝ)) ∧ EndsAt (twoPoints 0 2) (fun q => true = true ∧ q ∉ [0]) (fun _ => 0) (fun _ => 0) (fun _ => 1) 1 t := by
  obtain ⟨nb, len, e, h | h⟩ := C88_trim_spoke (twoPoints 0 2) linkRight (twoPoints_right (by norm_num)) (fun _ => true) (fun _ => 0) [0] (fun _ => 0) (fun _ => 1)
    (by unfold UnitDir euclid; norm_num [twoPoints]) (by intro q hq he; rw [euclid_self]; exact euclid_nonneg _ _ _)
  · obtain ⟨t, rfl, ht⟩ := h
    have h1 : nb = 1 := by
      have a := ht.valid
      have b := ht.counts.2
      simp [twoPoints] at a b
      omega
    subst h1
    exact ⟨t, e, ht⟩
  · exfalso
    have := h.2.2 1 (by simp [twoPoints]) (by simp) 2 (by norm_num)
    rw [euclid_sq, euclid_sq] at this
    norm_num [twoPoints, along, upd] at this

/-- **C88 fails** without the tolerance, at small scale: with seeds at 0 and `1e-9` the spoke from the first one towards the second one is not cut at all. -/
theorem C88_small_scale_false : trimSpoke (twoPoints 0 1e-9) linkRight (fun _ => true) (fun _ => 0) [0] (fun _ => 0) (fun _ => 1) (2, ⊤) = some (2, ⊤) ∧
    euclid 1 (along (fun _ => 0) (fun _ => 1) 1e-9) ((twoPoints 0 1e-9).pts 1) < euclid 1 (along (fun _ => 0) (fun _ => 1) 1e-9) (fun _ => 0) := by
  constructor
  · obtain ⟨r, e, hr⟩ := trimSpoke_spec (twoPoints_right (show (0 : ℝ) < 1e-9 by norm_num)) (fun _ => true) (fun _ => 0) [0] (fun _ => 0) (fun _ => 1)
      (by unfold UnitDir euclid; norm_num [twoPoints])
    rcases hr with ⟨h1, h2, -⟩ | ⟨rfl, -⟩
    · exfalso
      obtain ⟨g1, g2⟩ := cutElig_iff.1 h2
      have h3 : r.1 = 1 := by
        simp [twoPoints, trimElig] at h1 g1
        omega
      rw [h3] at g2
      norm_num [dotE, sumDim, twoPoints, upd] at g2
    · exact e
  · refine lt_of_pow_lt_pow_left₀ 2 (euclid_nonneg _ _ _) ?_
    rw [euclid_sq, euclid_sq]
    norm_num [twoPoints, along, upd]

/-! ## C89: neighbours -/

/-- The seed that ends the spoke in direction `u`, if it is bounded, when `old` are left out. -/
noncomputable def spokeHit (P : PointStore ℝ) (ln : Links) (mark : Nat → Bool) (x : Nat → ℝ) (old : List Nat) (u : Nat → ℝ) : Option (Nat × ℝ) :=
  match trimSpoke P ln mark x old x u (P.num, ⊤) with
  | some (nb, some b) => some (nb, b)
  | _ => none

/-- Number of directions whose spoke ends at `seed`. -/
noncomputable def hitCount (P : PointStore ℝ) (ln : Links) (mark : Nat → Bool) (x : Nat → ℝ) (old : List Nat) (us : List (Nat → ℝ)) (seed : Nat) : Nat :=
  us.countP fun u => decide (∃ b, spokeHit P ln mark x old u = some (seed, b))

/-- The entry for one spoke. -/
def SpokeEntry (P : PointStore ℝ) (ln : Links) (mark : Nat → Bool) (x : Nat → ℝ) (old : List Nat) (u : Nat → ℝ) (a : SpokeRec) : Prop :=
  (∃ nb b, spokeHit P ln mark x old u = some (nb, b) ∧ a.nbr = some nb ∧ a.pt = along x u b ∧ EndsAt P (fun q => mark q = true ∧ q ∉ old) x x u nb b) ∨
    (spokeHit P ln mark x old u = none ∧ a.nbr = none ∧ Unbounded P (fun q => mark q = true ∧ q ∉ old) x x u)

theorem addHit_append (seed level : Nat) (l l' : List NbrRec) (h : ∀ a ∈ l, a.seed ≠ seed) : addHit seed level (l ++ l') = l ++ addHit seed level l' := by
  induction l with
  | nil => rfl
  | cons a l ih =>
    rw [List.cons_append, addHit, if_neg (h a (by simp)), ih fun b hb => h b (by simp [hb])]
    rfl

/-- What is known of the entries of one layer after the directions `us`. -/
structure LayerOK (P : PointStore ℝ) (ln : Links) (mark : Nat → Bool) (x : Nat → ℝ) (old : List Nat) (layer : Nat) (us : List (Nat → ℝ)) (l : List NbrRec) : Prop where
  nodup : (l.map NbrRec.seed).Nodup
  level : ∀ a ∈ l, a.level = layer
  fresh : ∀ a ∈ l, a.seed ∉ old ∧ a.seed < P.num ∧ mark a.seed = true
  hits : ∀ a ∈ l, a.hits = hitCount P ln mark x old us a.seed ∧ 1 ≤ a.hits
  all : ∀ u ∈ us, ∀ nb b, spokeHit P ln mark x old u = some (nb, b) → ∃ a ∈ l, a.seed = nb

theorem addHit_seeds (seed level : Nat) (l : List NbrRec) : (addHit seed level l).map NbrRec.seed = if seed ∈ l.map NbrRec.seed then l.map NbrRec.seed else l.map NbrRec.seed ++ [seed] := by
  induction l with
  | nil => simp [addHit]
  | cons a l ih =>
    rw [addHit]
    by_cases h : a.seed = seed
    · rw [if_pos h]; simp [h]
    · rw [if_neg h, List.map_cons, ih]
      by_cases h2 : seed ∈ l.map NbrRec.seed
      · rw [if_pos h2, if_pos (by simp only [List.map_cons, List.mem_cons]; exact Or.inr h2)]; rfl
      · rw [if_neg h2, if_neg (by simp only [List.map_cons, List.mem_cons, not_or]; exact ⟨Ne.symm h, h2⟩)]; rfl

theorem addHit_mem {seed level : Nat} {l : List NbrRec} (hn : (l.map NbrRec.seed).Nodup) {a : NbrRec} (ha : a ∈ addHit seed level l) :
    (a.seed ≠ seed ∧ a ∈ l) ∨ (∃ b ∈ l, b.seed = seed ∧ a = ⟨seed, b.hits + 1, b.level⟩) ∨ (seed ∉ l.map NbrRec.seed ∧ a = ⟨seed, 1, level⟩) := by
  induction l with
  | nil => simp [addHit] at ha; exact Or.inr (Or.inr ⟨by simp, ha⟩)
  | cons b l ih =>
    rw [List.map_cons, List.nodup_cons] at hn
    rw [addHit] at ha
    by_cases h : b.seed = seed
    · rw [if_pos h] at ha
      rcases List.mem_cons.1 ha with rfl | ha
      · exact Or.inr (Or.inl ⟨b, by simp, h, by rw [h]⟩)
      · refine Or.inl ⟨?_, by simp [ha]⟩
        intro he
        rw [h, ← he] at hn
        exact hn.1 (List.mem_map_of_mem ha)
    · rw [if_neg h] at ha
      rcases List.mem_cons.1 ha with rfl | ha
      · exact Or.inl ⟨h, by simp⟩
      · rcases ih hn.2 ha with ⟨h1, h2⟩ | ⟨c, hc, h1⟩ | ⟨h1, h2⟩
        · exact Or.inl ⟨h1, by simp [h2]⟩
        · exact Or.inr (Or.inl ⟨c, by simp [hc], h1⟩)
        · exact Or.inr (Or.inr ⟨by simp only [List.map_cons, List.mem_cons, not_or]; exact ⟨Ne.symm h, h1⟩, h2⟩)

theorem hitCount_append (P : PointStore ℝ) (ln : Links) (mark : Nat → Bool) (x : Nat → ℝ) (old : List Nat) (us : List (Nat → ℝ)) (u : Nat → ℝ) (seed : Nat) :
    hitCount P ln mark x old (us ++ [u]) seed = hitCount P ln mark x old us seed + if ∃ b, spokeHit P ln mark x old u = some (seed, b) then 1 else 0 := by
  unfold hitCount
  rw [List.countP_append]
  simp [List.countP_cons]

theorem LayerOK.skip {P : PointStore ℝ} {ln : Links} {mark : Nat → Bool} {x : Nat → ℝ} {old : List Nat} {layer : Nat} {us : List (Nat → ℝ)} {l : List NbrRec} (h : LayerOK P ln mark x old layer us l)
    {u : Nat → ℝ} (hu : spokeHit P ln mark x old u = none) : LayerOK P ln mark x old layer (us ++ [u]) l := by
  refine ⟨h.nodup, h.level, h.fresh, fun a ha => ?_, fun v hv nb b hb => ?_⟩
  · rw [hitCount_append, hu]
    simpa using h.hits a ha
  · rcases List.mem_append.1 hv with hv | hv
    · exact h.all v hv nb b hb
    · simp only [List.mem_singleton] at hv
      subst hv
      rw [hu] at hb; simp at hb

theorem LayerOK.add {P : PointStore ℝ} {ln : Links} {mark : Nat → Bool} {x : Nat → ℝ} {old : List Nat} {layer : Nat} {us : List (Nat → ℝ)} {l : List NbrRec} (h : LayerOK P ln mark x old layer us l)
    {u : Nat → ℝ} {nb : Nat} {b : ℝ} (hu : spokeHit P ln mark x old u = some (nb, b)) (hnb : nb ∉ old ∧ nb < P.num ∧ mark nb = true) :
    LayerOK P ln mark x old layer (us ++ [u]) (addHit nb layer l) := by
  have hcount : ∀ seed, hitCount P ln mark x old (us ++ [u]) seed = hitCount P ln mark x old us seed + if nb = seed then 1 else 0 := by
    intro seed
    rw [hitCount_append, hu]
    simp
  refine ⟨?_, ?_, ?_, ?_, ?_⟩
  · rw [addHit_seeds]
    by_cases hm : nb ∈ l.map NbrRec.seed
    · rw [if_pos hm]; exact h.nodup
    · rw [if_neg hm]
      exact List.nodup_append.2 ⟨h.nodup, by simp, by intro a ha b hb; simp at hb; subst hb; rintro rfl; exact hm ha⟩
  · intro a ha
    rcases addHit_mem h.nodup ha with ⟨-, h2⟩ | ⟨c, hc, -, rfl⟩ | ⟨-, rfl⟩
    · exact h.level a h2
    · exact h.level c hc
    · rfl
  · intro a ha
    rcases addHit_mem h.nodup ha with ⟨-, h2⟩ | ⟨c, hc, -, rfl⟩ | ⟨-, rfl⟩
    · exact h.fresh a h2
    · exact hnb
    · exact hnb
  · intro a ha
    rw [hcount]
    rcases addHit_mem h.nodup ha with ⟨h1, h2⟩ | ⟨c, hc, h1, rfl⟩ | ⟨h1, rfl⟩
    · rw [if_neg (Ne.symm h1)]; exact h.hits a h2
    · have := (h.hits c hc).1
      rw [h1] at this
      simp only [if_true]
      exact ⟨by rw [this], by omega⟩
    · simp only [if_true]
      have : hitCount P ln mark x old us nb = 0 := by
        unfold hitCount
        rw [List.countP_eq_zero]
        intro v hv hb
        simp only [decide_eq_true_eq] at hb
        obtain ⟨b', hb⟩ := hb
        obtain ⟨a, ha, ha2⟩ := h.all v hv nb b' hb
        exact h1 (ha2 ▸ List.mem_map_of_mem ha)
      rw [this]
      exact ⟨rfl, le_refl _⟩
  · intro v hv nb' b' hb
    have hmem : ∀ seed, seed ∈ l.map NbrRec.seed ∨ seed = nb → ∃ a ∈ addHit nb layer l, a.seed = seed := by
      intro seed hs
      have : seed ∈ (addHit nb layer l).map NbrRec.seed := by
        rw [addHit_seeds]
        by_cases hm : nb ∈ l.map NbrRec.seed
        · rw [if_pos hm]
          rcases hs with hs | rfl
          · exact hs
          · exact hm
        · rw [if_neg hm]
          rcases hs with hs | rfl
          · exact List.mem_append_left _ hs
          · simp
      obtain ⟨a, ha, e⟩ := List.mem_map.1 this
      exact ⟨a, ha, e⟩
    rcases List.mem_append.1 hv with hv | hv
    · obtain ⟨a, ha, e⟩ := h.all v hv nb' b' hb
      exact hmem nb' (Or.inl (e ▸ List.mem_map_of_mem ha))
    · simp only [List.mem_singleton] at hv
      subst hv
      rw [hu] at hb
      simp only [Option.some.injEq, Prod.mk.injEq] at hb
      exact hmem nb' (Or.inr hb.1.symm)

theorem spokeLayer_spec {P : PointStore ℝ} {ln : Links} (h : RealTree P ln) (mark : Nat → Bool) (x : Nat → ℝ) (nbrs0 : List NbrRec) (old : List Nat) (hold : ∀ a ∈ nbrs0, a.seed ∈ old) (layer : Nat)
    (us done : List (Nat → ℝ)) (hu : ∀ u ∈ us, UnitDir P.dim u) (l : List NbrRec) (hl : LayerOK P ln mark x old (layer + 1) done l) :
    ∃ l' sp, spokeLayer P ln mark x old layer us (nbrs0 ++ l) = some (nbrs0 ++ l', sp) ∧ LayerOK P ln mark x old (layer + 1) (done ++ us) l' ∧ sp.length = us.length ∧
      ∀ (k : Nat) (u : Nat → ℝ) (a : SpokeRec), us[k]? = some u → sp[k]? = some a → SpokeEntry P ln mark x old u a := by
  induction us generalizing done l with
  | nil => exact ⟨l, [], rfl, by simpa using hl, rfl, by simp⟩
  | cons u us ih =>
    obtain ⟨nb, len, e, hr⟩ := C88_trim_spoke P ln h mark x old x u (hu u (by simp)) (by intro q hq he; rw [euclid_self]; exact euclid_nonneg _ _ _)
    have hsplit : done ++ u :: us = (done ++ [u]) ++ us := by simp
    unfold spokeLayer
    rw [e, hsplit]
    rcases hr with ⟨t, rfl, ht⟩ | ⟨rfl, -, ht⟩
    · have hhit : spokeHit P ln mark x old u = some (nb, t) := by unfold spokeHit; rw [e]
      have hl' := hl.add hhit ⟨ht.counts.2, ht.valid, ht.counts.1⟩
      obtain ⟨l', sp, e', h1, h2, h3⟩ := ih (done ++ [u]) (fun v hv => hu v (by simp [hv])) _ hl'
      refine ⟨l', ⟨fun d => x d + t * u d, some nb⟩ :: sp, ?_, h1, by simp [h2], ?_⟩
      · show (match spokeLayer P ln mark x old layer us (addHit nb (layer + 1) (nbrs0 ++ l)) with
          | none => none
          | some (nbrs, sp) => some (nbrs, (⟨fun d => x d + t * u d, some nb⟩ : SpokeRec) :: sp)) = _
        rw [addHit_append _ _ _ _ (fun a ha hs => ht.counts.2 (by rw [← hs]; exact hold a ha)), e']
      · intro k v a hv ha
        cases k with
        | zero =>
          simp only [List.getElem?_cons_zero, Option.some.injEq] at hv ha
          subst hv ha
          exact Or.inl ⟨nb, t, hhit, rfl, rfl, ht⟩
        | succ k => exact h3 k v a (by simpa using hv) (by simpa using ha)
    · have hhit : spokeHit P ln mark x old u = none := by unfold spokeHit; rw [e]
      obtain ⟨l', sp, e', h1, h2, h3⟩ := ih (done ++ [u]) (fun v hv => hu v (by simp [hv])) _ (hl.skip hhit)
      refine ⟨l', ⟨u, none⟩ :: sp, ?_, h1, by simp [h2], ?_⟩
      · show (match spokeLayer P ln mark x old layer us (nbrs0 ++ l) with
          | none => none
          | some (nbrs, sp) => some (nbrs, (⟨u, none⟩ : SpokeRec) :: sp)) = _
        rw [e']
      · intro k v a hv ha
        cases k with
        | zero =>
          simp only [List.getElem?_cons_zero, Option.some.injEq] at hv ha
          subst hv ha
          exact Or.inr ⟨hhit, rfl, ht⟩
        | succ k => exact h3 k v a (by simpa using hv) (by simpa using ha)

/-- The seeds of levels up to `k`. -/
def upTo (out : List NbrRec) (k : Nat) : List Nat := (out.filter fun a => decide (a.level ≤ k)).map NbrRec.seed

/-- What is known of level `k + 1`, found with the directions `us`. -/
def LevelOK (P : PointStore ℝ) (ln : Links) (mark : Nat → Bool) (x : Nat → ℝ) (out : List NbrRec) (k : Nat) (us : List (Nat → ℝ)) : Prop :=
  (∀ a ∈ out, a.level = k + 1 → 1 ≤ a.hits ∧ a.hits = hitCount P ln mark x (upTo out k) us a.seed) ∧
    ∀ u ∈ us, ∀ nb b, spokeHit P ln mark x (upTo out k) u = some (nb, b) → ∃ a ∈ out, a.seed = nb ∧ a.level = k + 1

/-- The entries for the spokes `us`. -/
def SpokesOK (P : PointStore ℝ) (ln : Links) (mark : Nat → Bool) (x : Nat → ℝ) (old : List Nat) (us : List (Nat → ℝ)) (sp : List SpokeRec) : Prop :=
  sp.length = us.length ∧ ∀ (k : Nat) (u : Nat → ℝ) (a : SpokeRec), us[k]? = some u → sp[k]? = some a → SpokeEntry P ln mark x old u a

theorem upTo_append {l l' : List NbrRec} {k : Nat} (h : ∀ a ∈ l, a.level ≤ k) (h' : ∀ a ∈ l', k < a.level) : upTo (l ++ l') k = l.map NbrRec.seed := by
  unfold upTo
  rw [List.filter_append, List.filter_eq_self.2 (fun a ha => by simpa using h a ha), List.filter_eq_nil_iff.2 (fun a ha => by simpa using h' a ha), List.append_nil]

theorem spokeLayers_spec {P : PointStore ℝ} {ln : Links} (h : RealTree P ln) (mark : Nat → Bool) (x : Nat → ℝ) (uss : List (List (Nat → ℝ))) (hu : ∀ us ∈ uss, ∀ u ∈ us, UnitDir P.dim u)
    (layer : Nat) (nbrs : List NbrRec) (sp : List SpokeRec) (hn : (nbrs.map NbrRec.seed).Nodup) (hlev : ∀ a ∈ nbrs, a.level ≤ layer) (hval : ∀ a ∈ nbrs, a.seed < P.num ∧ mark a.seed = true) :
    ∃ ext sp', spokeLayers P ln mark x uss layer (nbrs.map NbrRec.seed) nbrs sp = some (nbrs ++ ext, sp') ∧ ((nbrs ++ ext).map NbrRec.seed).Nodup ∧
      (∀ a ∈ ext, layer < a.level ∧ a.level ≤ layer + uss.length ∧ a.seed < P.num ∧ mark a.seed = true) ∧
      (∀ (k : Nat) (us : List (Nat → ℝ)), uss[k]? = some us → LevelOK P ln mark x (nbrs ++ ext) (layer + k) us) ∧
      (uss = [] → sp' = sp) ∧ ∀ us, uss.getLast? = some us → SpokesOK P ln mark x (upTo (nbrs ++ ext) (layer + (uss.length - 1))) us sp' := by
  induction uss generalizing layer nbrs sp with
  | nil => exact ⟨[], sp, by simp [spokeLayers], by simpa using hn, by simp, by simp, fun _ => rfl, by simp⟩
  | cons us uss ih =>
    obtain ⟨l, sp1, e, hl, hs1, hs2⟩ := spokeLayer_spec h mark x nbrs (nbrs.map NbrRec.seed) (fun a ha => List.mem_map_of_mem ha) layer us [] (hu us (by simp)) []
      ⟨by simp, by simp, by simp, by simp, by simp⟩
    rw [List.append_nil, List.nil_append] at *
    have hn' : ((nbrs ++ l).map NbrRec.seed).Nodup := by
      rw [List.map_append]
      refine List.nodup_append.2 ⟨hn, hl.nodup, ?_⟩
      rintro a ha b hb rfl
      obtain ⟨r, hr, rfl⟩ := List.mem_map.1 hb
      exact (hl.fresh r hr).1 ha
    obtain ⟨ext, sp', e', h1, h2, h3, h4, h5⟩ := ih (fun vs hvs => hu vs (by simp [hvs])) (layer + 1) (nbrs ++ l) sp1 hn'
      (by
        intro a ha
        rcases List.mem_append.1 ha with ha | ha
        · have := hlev a ha; omega
        · rw [hl.level a ha])
      (by
        intro a ha
        rcases List.mem_append.1 ha with ha | ha
        · exact hval a ha
        · exact (hl.fresh a ha).2)
    have hup : upTo (nbrs ++ (l ++ ext)) layer = nbrs.map NbrRec.seed := upTo_append hlev (by
      intro a ha
      rcases List.mem_append.1 ha with ha | ha
      · rw [hl.level a ha]; omega
      · have := (h2 a ha).1; omega)
    refine ⟨l ++ ext, sp', ?_, by rw [← List.append_assoc]; exact h1, ?_, ?_, by simp, ?_⟩
    · rw [spokeLayers, e]
      simp only
      rw [e', List.append_assoc]
    · intro a ha
      simp only [List.length_cons]
      rcases List.mem_append.1 ha with ha | ha
      · have := hl.level a ha
        exact ⟨by omega, by omega, (hl.fresh a ha).2⟩
      · obtain ⟨q1, q2, q3⟩ := h2 a ha
        exact ⟨by omega, by omega, q3⟩
    · intro k vs hk
      cases k with
      | zero =>
        simp only [List.getElem?_cons_zero, Option.some.injEq] at hk
        subst hk
        unfold LevelOK
        simp only [Nat.add_zero]
        rw [hup]
        refine ⟨?_, ?_⟩
        · intro a ha hla
          rcases List.mem_append.1 ha with ha | ha
          · have := hlev a ha; omega
          · rcases List.mem_append.1 ha with ha | ha
            · exact ⟨(hl.hits a ha).2, (hl.hits a ha).1⟩
            · have := (h2 a ha).1; omega
        · intro u huu nb b hb
          obtain ⟨a, ha, ha2⟩ := hl.all u huu nb b hb
          exact ⟨a, by simp [ha], ha2, hl.level a ha⟩
      | succ k =>
        have := h3 k vs (by simpa using hk)
        rw [List.append_assoc, show layer + 1 + k = layer + (k + 1) by omega] at this
        exact this
    · intro vs hvs
      cases uss with
      | nil =>
        simp only [List.getLast?_singleton, Option.some.injEq] at hvs
        subst hvs
        simp only [List.length_cons, List.length_nil, Nat.zero_add, Nat.sub_self, Nat.add_zero]
        rw [hup, h4 rfl]
        exact ⟨hs1, hs2⟩
      | cons ws uss =>
        rw [List.getLast?_cons_cons] at hvs
        have := h5 vs hvs
        simp only [List.length_cons, Nat.add_sub_cancel] at this ⊢
        rw [List.append_assoc, show layer + 1 + uss.length = layer + (uss.length + 1) by omega] at this
        exact this

/-- **C89.** For every tree, every query point and all directions, the neighbours found are distinct marked seeds.  An entry of level 0 is there exactly if the query point is (within `1e-10`) at a seed,
and is a seed nearest to it.  The entries of level `k + 1` are the seeds which end a spoke of layer `k` when the seeds of the earlier levels are left out, each with the number of spokes it ends; and the
spoke points of the last layer are the ends of its spokes. -/
theorem C89_neighbors (P : PointStore ℝ) (ln : Links) (h : RealTree P ln) (mark : Nat → Bool) (x : Nat → ℝ) (uss : List (List (Nat → ℝ))) (hu : ∀ us ∈ uss, ∀ u ∈ us, UnitDir P.dim u) :
    ∃ out sp, voronoiNeighbors P ln mark x uss = some (out, sp) ∧ (out.map NbrRec.seed).Nodup ∧ (∀ a ∈ out, a.seed < P.num ∧ mark a.seed = true ∧ a.level ≤ uss.length) ∧
      ((∃ a ∈ out, a.level = 0) ↔ ∃ q, q < P.num ∧ mark q = true ∧ euclid P.dim x (P.pts q) < 1e-10) ∧
      (∀ a ∈ out, a.level = 0 → a.hits = 18446744073709551615 ∧ euclid P.dim x (P.pts a.seed) < 1e-10 ∧ ∀ q, q < P.num → mark q = true → euclid P.dim x (P.pts a.seed) ≤ euclid P.dim x (P.pts q)) ∧
      (∀ (k : Nat) (us : List (Nat → ℝ)), uss[k]? = some us → LevelOK P ln mark x out k us) ∧
      ∀ us, uss.getLast? = some us → SpokesOK P ln mark x (upTo out (uss.length - 1)) us sp := by
  obtain ⟨ic, hc, e, hq⟩ := C06_closest_is_exhaustive P ln h mark x false ⊤ le_top
  unfold voronoiNeighbors
  rw [e]
  simp only
  by_cases hn : hc < ((1e-10 : ℝ) : WithTop ℝ)
  · rw [if_pos hn]
    rcases hq with ⟨h1, h2, h3, -, h5⟩ | ⟨-, rfl, -⟩
    · rw [h3] at hn
      have hd := WithTop.coe_lt_coe.1 hn
      obtain ⟨ext, sp', e', g1, g2, g3, -, g5⟩ := spokeLayers_spec h mark x uss hu 0 [⟨ic, sizeMax64, 0⟩] [] (by simp) (by simp) (by simp [h1, h2])
      simp only [Nat.zero_add] at g2 g3 g5
      refine ⟨_, sp', e', g1, ?_, ⟨fun _ => ⟨ic, h1, h2, hd⟩, fun _ => ⟨⟨ic, sizeMax64, 0⟩, by simp, rfl⟩⟩, ?_, g3, g5⟩
      · intro a ha
        rcases List.mem_append.1 ha with ha | ha
        · simp only [List.mem_singleton] at ha
          subst ha
          exact ⟨h1, h2, Nat.zero_le _⟩
        · obtain ⟨-, q2, q3, q4⟩ := g2 a ha
          exact ⟨q3, q4, q2⟩
      · intro a ha hla
        rcases List.mem_append.1 ha with ha | ha
        · simp only [List.mem_singleton] at ha
          subst ha
          exact ⟨rfl, hd, h5⟩
        · have := (g2 a ha).1; omega
    · simp at hn
  · rw [if_neg hn]
    obtain ⟨ext, sp', e', g1, g2, g3, -, g5⟩ := spokeLayers_spec h mark x uss hu 0 [] [] (by simp) (by simp) (by simp)
    simp only [Nat.zero_add, List.nil_append, List.map_nil] at e' g1 g2 g3 g5
    refine ⟨ext, sp', e', g1, fun a ha => ⟨(g2 a ha).2.2.1, (g2 a ha).2.2.2, (g2 a ha).2.1⟩, ⟨?_, ?_⟩, ?_, g3, g5⟩
    · rintro ⟨a, ha, hla⟩
      have := (g2 a ha).1; omega
    · rintro ⟨q, h1, h2, h3⟩
      exfalso
      rcases hq with ⟨-, -, rfl, -, h5⟩ | ⟨-, rfl, h5⟩
      · exact hn (WithTop.coe_lt_coe.2 (lt_of_le_of_lt (h5 q h1 h2) h3))
      · have := h5 q h1 h2
        simp at this
    · intro a ha hla
      have := (g2 a ha).1; omega

/-! ## A wanted number of neighbours -/

theorem wantedLoop_spec {P : PointStore ℝ} {ln : Links} (h : RealTree P ln) (mark : Nat → Bool) (x : Nat → ℝ) (want : Nat) (us : List (Nat → ℝ)) (hu : ∀ u ∈ us, UnitDir P.dim u) (nbrs : List Nat)
    (hn : nbrs.Nodup) (hv : ∀ a ∈ nbrs, a < P.num ∧ mark a = true) :
    (∀ out, wantedLoop P ln mark x want us nbrs = some out → nbrs <+: out ∧ out.Nodup ∧ (∀ a ∈ out, a < P.num ∧ mark a = true) ∧ want ≤ out.length ∧ (out = nbrs ∨ out.length = want)) ∧
      (P.num < want → wantedLoop P ln mark x want us nbrs = none) := by
  have hlen : nbrs.length ≤ P.num := by
    have := (List.subperm_of_subset hn (fun a ha => List.mem_range.2 (hv a ha).1)).length_le
    simpa using this
  induction us generalizing nbrs with
  | nil =>
    unfold wantedLoop
    by_cases hw : nbrs.length < want
    · rw [if_pos hw]; simp
    · rw [if_neg hw]
      refine ⟨?_, fun h => absurd h (by omega)⟩
      intro out ho
      obtain rfl := Option.some.inj ho
      exact ⟨List.prefix_refl _, hn, hv, by omega, Or.inl rfl⟩
  | cons u us ih =>
    unfold wantedLoop
    by_cases hw : nbrs.length < want
    · rw [if_pos hw]
      obtain ⟨nb, len, e, hr⟩ := C88_trim_spoke P ln h mark x nbrs x u (hu u (by simp)) (by intro q hq he; rw [euclid_self]; exact euclid_nonneg _ _ _)
      simp only [e]
      rcases hr with ⟨t, rfl, ht⟩ | ⟨rfl, -, ht⟩
      · have hn' : (nbrs ++ [nb]).Nodup := List.nodup_append.2 ⟨hn, by simp, by intro a ha b hb; simp at hb; subst hb; rintro rfl; exact ht.counts.2 ha⟩
        have hv' : ∀ a ∈ nbrs ++ [nb], a < P.num ∧ mark a = true := by
          intro a ha
          rcases List.mem_append.1 ha with ha | ha
          · exact hv a ha
          · simp at ha; subst ha; exact ⟨ht.valid, ht.counts.1⟩
        have hlen' : (nbrs ++ [nb]).length ≤ P.num := by
          have := (List.subperm_of_subset hn' (fun a ha => List.mem_range.2 (hv' a ha).1)).length_le
          simpa using this
        obtain ⟨g1, g2⟩ := ih (fun v hv => hu v (by simp [hv])) (nbrs ++ [nb]) hn' hv' hlen'
        refine ⟨fun out ho => ?_, g2⟩
        obtain ⟨q1, q2, q3, q4, q5⟩ := g1 out ho
        refine ⟨(List.prefix_append _ _).trans q1, q2, q3, q4, Or.inr ?_⟩
        rcases q5 with rfl | q5
        · simp only [List.length_append, List.length_cons, List.length_nil, Nat.zero_add] at q4 ⊢; omega
        · exact q5
      · exact ih (fun v hv => hu v (by simp [hv])) nbrs hn hv hlen
    · rw [if_neg hw]
      refine ⟨?_, fun h => absurd h (by omega)⟩
      intro out ho
      obtain rfl := Option.some.inj ho
      exact ⟨List.prefix_refl _, hn, hv, by omega, Or.inl rfl⟩

theorem wanted_start {P : PointStore ℝ} {ln : Links} (h : RealTree P ln) (mark : Nat → Bool) (x : Nat → ℝ) :
    ∃ ic hc, closestQuery Rounding.exact P ln mark x false ⊤ = some (ic, hc) ∧ (if hc < ((1e-10 : ℝ) : WithTop ℝ) then [ic] else []).Nodup ∧
      ∀ a ∈ (if hc < ((1e-10 : ℝ) : WithTop ℝ) then [ic] else []), a < P.num ∧ mark a = true := by
  obtain ⟨ic, hc, e, hq⟩ := C06_closest_is_exhaustive P ln h mark x false ⊤ le_top
  refine ⟨ic, hc, e, ?_, ?_⟩
  · split_ifs <;> simp
  · intro a ha
    split_ifs at ha with hn
    · simp only [List.mem_singleton] at ha
      subst ha
      rcases hq with ⟨h1, h2, -⟩ | ⟨-, rfl, -⟩
      · exact ⟨h1, h2⟩
      · simp at hn
    · simp at ha

/-- **C89.** If the search for a wanted number `≥ 1` of neighbours ends, it gives exactly that many distinct marked seeds. -/
theorem C89_wanted (P : PointStore ℝ) (ln : Links) (h : RealTree P ln) (mark : Nat → Bool) (x : Nat → ℝ) (want : Nat) (hw : 1 ≤ want) (us : List (Nat → ℝ)) (hu : ∀ u ∈ us, UnitDir P.dim u) (out : List Nat)
    (ho : wantedNeighbors P ln mark x want us = some out) : out.Nodup ∧ out.length = want ∧ ∀ a ∈ out, a < P.num ∧ mark a = true := by
  obtain ⟨ic, hc, e, h1, h2⟩ := wanted_start h mark x
  unfold wantedNeighbors at ho
  rw [e] at ho
  simp only at ho
  obtain ⟨-, q2, q3, q4, q5⟩ := (wantedLoop_spec h mark x want us hu _ h1 h2).1 out ho
  refine ⟨q2, ?_, q3⟩
  rcases q5 with rfl | q5
  · split_ifs at q4 ⊢ <;> simp at q4 ⊢ <;> omega
  · exact q5

/-- **C89, finding.** If more neighbours are wanted than there are seeds, the loop does not end, whatever the directions drawn. -/
theorem C89_too_many_wanted_never_ends (P : PointStore ℝ) (ln : Links) (h : RealTree P ln) (mark : Nat → Bool) (x : Nat → ℝ) (want : Nat) (hw : P.num < want) (us : List (Nat → ℝ)) (hu : ∀ u ∈ us, UnitDir P.dim u) :
    wantedNeighbors P ln mark x want us = none := by
  obtain ⟨ic, hc, e, h1, h2⟩ := wanted_start h mark x
  unfold wantedNeighbors
  rw [e]
  simp only
  exact (wantedLoop_spec h mark x want us hu _ h1 h2).2 hw

/-- C89 applies: the neighbours of the first of two points, with one direction. -/
example : ∃ out sp, voronoiNeighbors (twoPoints 0 2) linkRight (fun _ => true) (fun _ => 0) [[fun _ => 1]] = some (out, sp) ∧ ∃ a ∈ out, a.level = 0 ∧ a.seed = 0 := by
  obtain ⟨out, sp, e, -, h2, h3, h4, -⟩ := C89_neighbors (twoPoints 0 2) linkRight (twoPoints_right (by norm_num)) (fun _ => true) (fun _ => 0) [[fun _ => 1]]
    (by intro us hus u hu; simp at hus; subst hus; simp at hu; subst hu; unfold UnitDir euclid; norm_num [twoPoints])
  obtain ⟨a, ha, ha0⟩ := h3.2 ⟨0, by simp [twoPoints], rfl, by unfold euclid; norm_num [twoPoints, upd]⟩
  refine ⟨out, sp, e, a, ha, ha0, ?_⟩
  obtain ⟨-, h5, -⟩ := h4 a ha ha0
  have h6 := (h2 a ha).1
  by_contra hne
  have h7 : a.seed = 1 := by simp [twoPoints] at h6; omega
  rw [h7] at h5
  unfold euclid at h5
  norm_num [twoPoints, upd] at h5
  have : (1 : ℝ) < Real.sqrt 4 := by rw [Real.lt_sqrt] <;> norm_num
  linarith

end VoroCrust
