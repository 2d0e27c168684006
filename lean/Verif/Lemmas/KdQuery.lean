import Verif.Model.KdQuery
import Verif.Lemmas.KdTree
import Mathlib.Tactic.Linarith
import Mathlib.Tactic.Positivity

/-! # Lemmas about kd-tree queries -/

set_option linter.unusedSimpArgs false

namespace VoroCrust

open Classical

section
variable {ρ : Rounding}

theorem Rounding.zero (ρ : Rounding) : ρ.rnd 0 = 0 := by
  have := ρ.neg 0
  rw [neg_zero] at this
  linarith

theorem Rounding.nonneg (ρ : Rounding) {x : ℝ} (h : 0 ≤ x) : 0 ≤ ρ.rnd x := by
  have := ρ.mono h; rwa [ρ.zero] at this

theorem dstSq_nonneg (x p : Nat → ℝ) (n : Nat) : 0 ≤ dstSq ρ x p n := by
  induction n with
  | zero => simp [dstSq]
  | succ n ih => exact ρ.nonneg (add_nonneg ih (ρ.nonneg (mul_self_nonneg _)))

theorem dstSq_fix (x p : Nat → ℝ) (n : Nat) : ρ.rnd (dstSq ρ x p n) = dstSq ρ x p n := by
  cases n with
  | zero => simp [dstSq, ρ.zero]
  | succ n => simp [dstSq, ρ.idem]

theorem dstSq_ge (x p : Nat → ℝ) {n d : Nat} (h : d < n) :
    ρ.rnd (ρ.rnd (x d - p d) * ρ.rnd (x d - p d)) ≤ dstSq ρ x p n := by
  induction n with
  | zero => omega
  | succ n ih =>
    simp only [dstSq]
    by_cases hd : d = n
    · subst hd
      have h1 := ρ.mono (le_add_of_nonneg_left (a := ρ.rnd (ρ.rnd (x d - p d) * ρ.rnd (x d - p d))) (dstSq_nonneg (ρ := ρ) x p d))
      rwa [ρ.idem] at h1
    · have h1 := ρ.mono (le_add_of_nonneg_right (a := dstSq ρ x p n) (ρ.nonneg (mul_self_nonneg (ρ.rnd (x n - p n)))))
      rw [dstSq_fix] at h1
      exact (ih (by omega)).trans h1

theorem dstOf_nonneg (x p : Nat → ℝ) (n : Nat) : 0 ≤ dstOf ρ x p n := ρ.nonneg (Real.sqrt_nonneg _)
theorem dstOf_fix (x p : Nat → ℝ) (n : Nat) : ρ.rnd (dstOf ρ x p n) = dstOf ρ x p n := ρ.idem _

/-- A bound that is unset, or a non-negative representable number. -/
def BoundOK (ρ : Rounding) (b : WithTop ℝ) : Prop := ∀ r : ℝ, b = (r : WithTop ℝ) → 0 ≤ r ∧ ρ.rnd r = r

theorem dst_ge_of_sq {b d2 : ℝ} (hb : 0 ≤ b) (hbf : ρ.rnd b = b) (h : ρ.rnd (b * b) ≤ d2) :
    b ≤ ρ.rnd (Real.sqrt d2) := by
  have := ρ.mono (Real.sqrt_le_sqrt h)
  rwa [ρ.sqrtSq b hb hbf] at this

theorem dst_le_of_sq {b d2 : ℝ} (hb : 0 ≤ b) (hbf : ρ.rnd b = b) (h : d2 ≤ ρ.rnd (b * b)) :
    ρ.rnd (Real.sqrt d2) ≤ b := by
  have := ρ.mono (Real.sqrt_le_sqrt h)
  rwa [ρ.sqrtSq b hb hbf] at this

/-- A coordinate difference at least `b` makes the computed distance at least `b`. -/
theorem dst_ge_of_coord {x p : Nat → ℝ} {n d : Nat} (hd : d < n) {b : ℝ} (hb : 0 ≤ b) (hbf : ρ.rnd b = b)
    (h : b ≤ |ρ.rnd (x d - p d)|) : b ≤ dstOf ρ x p n := by
  refine dst_ge_of_sq hb hbf (le_trans (ρ.mono ?_) (dstSq_ge x p hd))
  rw [← abs_mul_abs_self (ρ.rnd (x d - p d))]
  exact mul_le_mul h h hb (abs_nonneg _)

theorem sq_ge_of_coord {x p : Nat → ℝ} {n d : Nat} (hd : d < n) {b : ℝ} (hb : 0 ≤ b)
    (h : b ≤ |ρ.rnd (x d - p d)|) : ρ.rnd (b * b) ≤ dstSq ρ x p n := by
  refine le_trans (ρ.mono ?_) (dstSq_ge x p hd)
  rw [← abs_mul_abs_self (ρ.rnd (x d - p d))]
  exact mul_le_mul h h hb (abs_nonneg _)

/-- Pruning the right side is sound for every rounding. -/
theorem prune_right {x p q b : ℝ} (hbf : ρ.rnd b = b) (hqf : ρ.rnd q = q) (hpq : p < q)
    (h : ¬ p < ρ.rnd (x + b)) : b ≤ |ρ.rnd (x - q)| := by
  have h1 : ρ.rnd (x + b) < q := lt_of_le_of_lt (not_lt.1 h) hpq
  have h2 : x + b < q := by
    by_contra hc
    have := ρ.mono (not_lt.1 hc)
    rw [hqf] at this
    exact absurd h1 (not_lt.2 this)
  have h3 : b ≤ ρ.rnd (q - x) := by
    have := ρ.mono (by linarith : b ≤ q - x)
    rwa [hbf] at this
  have h4 : ρ.rnd (x - q) = -ρ.rnd (q - x) := by rw [← ρ.neg]; congr 1; ring
  rw [h4, abs_neg]
  exact h3.trans (le_abs_self _)

/-- Pruning the left side is sound for every rounding if the pruned coordinate is strictly smaller. -/
theorem prune_left {x p q b : ℝ} (hbf : ρ.rnd b = b) (hqf : ρ.rnd q = q) (hpq : q < p)
    (h : ¬ ρ.rnd (x - b) < p) : b ≤ |ρ.rnd (x - q)| := by
  have h1 : q < ρ.rnd (x - b) := lt_of_lt_of_le hpq (not_lt.1 h)
  have h2 : q < x - b := by
    by_contra hc
    have := ρ.mono (not_lt.1 hc)
    rw [hqf] at this
    exact absurd h1 (not_lt.2 this)
  have h3 : b ≤ ρ.rnd (x - q) := by
    have := ρ.mono (by linarith : b ≤ x - q)
    rwa [hbf] at this
  exact h3.trans (le_abs_self _)

/-- With exact arithmetic pruning the left side is sound also for equal coordinates. -/
theorem prune_left_exact {x p q b : ℝ} (hpq : q ≤ p) (h : ¬ x - b < p) : b ≤ |x - q| :=
  le_trans (by linarith [not_lt.1 h]) (le_abs_self _)

end

/-! ## Closest point -/

theorem kt_mem_rl (i : Nat) (l r : KT) (q : Nat) : q ∈ [i] ++ r.idx ++ l.idx ↔ q ∈ (KT.node i l r).idx := by
  simp only [KT.idx, List.mem_append, List.mem_cons, List.not_mem_nil, or_false]; tauto
theorem kt_mem_lr (i : Nat) (l r : KT) (q : Nat) : q ∈ [i] ++ l.idx ++ r.idx ↔ q ∈ (KT.node i l r).idx := by
  simp only [KT.idx, List.mem_append, List.mem_cons, List.not_mem_nil, or_false]; tauto

/-- What a (partial) search over the indices `S` achieves, starting from `r0`. -/
structure Best (elig : Nat → Bool) (dist : Nat → ℝ) (strict : Prop) (S : List Nat) (r0 r : Nat × WithTop ℝ) : Prop where
  le : r.2 ≤ r0.2
  min : ∀ q ∈ S, elig q = true → r.2 ≤ (dist q : WithTop ℝ)
  attained : r = r0 ∨ (r.1 ∈ S ∧ elig r.1 = true ∧ r.2 = (dist r.1 : WithTop ℝ) ∧ (strict → r.2 < r0.2))

theorem Best.nil {elig : Nat → Bool} {dist : Nat → ℝ} {strict : Prop} (r : Nat × WithTop ℝ) :
    Best elig dist strict [] r r := ⟨le_refl _, by simp, Or.inl rfl⟩

theorem Best.trans {elig : Nat → Bool} {dist : Nat → ℝ} {strict : Prop} {S S' : List Nat} {r0 r1 r2 : Nat × WithTop ℝ}
    (h1 : Best elig dist strict S r0 r1) (h2 : Best elig dist strict S' r1 r2) :
    Best elig dist strict (S ++ S') r0 r2 := by
  refine ⟨h2.le.trans h1.le, ?_, ?_⟩
  · intro q hq he
    rcases List.mem_append.1 hq with hq | hq
    · exact h2.le.trans (h1.min q hq he)
    · exact h2.min q hq he
  · rcases h2.attained with h | ⟨a, b, c, e⟩
    · rcases h1.attained with h' | ⟨a, b, c, e⟩
      · exact Or.inl (h.trans h')
      · right; subst h; exact ⟨List.mem_append_left _ a, b, c, e⟩
    · exact Or.inr ⟨List.mem_append_right _ a, b, c, fun hs => lt_of_lt_of_le (e hs) h1.le⟩

theorem Best.skip {elig : Nat → Bool} {dist : Nat → ℝ} {strict : Prop} {S S' : List Nat} {r0 r1 : Nat × WithTop ℝ}
    (h1 : Best elig dist strict S r0 r1) (h2 : ∀ q ∈ S', elig q = true → r1.2 ≤ (dist q : WithTop ℝ)) :
    Best elig dist strict (S ++ S') r0 r1 := by
  refine ⟨h1.le, ?_, ?_⟩
  · intro q hq he
    rcases List.mem_append.1 hq with hq | hq
    · exact h1.min q hq he
    · exact h2 q hq he
  · rcases h1.attained with h | ⟨a, b, c, e⟩
    · exact Or.inl h
    · exact Or.inr ⟨List.mem_append_left _ a, b, c, e⟩

theorem Best.of_subset {elig : Nat → Bool} {dist : Nat → ℝ} {strict : Prop} {S S' : List Nat} {r0 r1 : Nat × WithTop ℝ}
    (h1 : Best elig dist strict S r0 r1) (h : ∀ q, q ∈ S ↔ q ∈ S') : Best elig dist strict S' r0 r1 :=
  ⟨h1.le, fun q hq => h1.min q ((h q).2 hq), h1.attained.imp id (fun ⟨a, b⟩ => ⟨(h _).1 a, b⟩)⟩

section
variable {ρ : Rounding} {P : PointStore ℝ} {ln : Links} {elig : Nat → Bool} {x : Nat → ℝ}

/-- Soundness of the prune tests on the subtree rooted anywhere, for this query. -/
structure PruneOK (ρ : Rounding) (P : PointStore ℝ) (x : Nat → ℝ) : Prop where
  right : ∀ i q d b, i < P.num → q < P.num → d < P.dim → P.lt (P.pts i d) (P.pts q d) = true → BoundOK ρ b →
    ¬ reachRight ρ (x d) (P.pts i d) b → b ≤ (dstOf ρ x (P.pts q) P.dim : WithTop ℝ)
  left : ∀ i q d b, i < P.num → q < P.num → i ≠ q → d < P.dim → P.lt (P.pts i d) (P.pts q d) = false → BoundOK ρ b →
    ¬ reachLeft ρ (x d) (P.pts i d) b → b ≤ (dstOf ρ x (P.pts q) P.dim : WithTop ℝ)

theorem BoundOK.of_dst (i : Nat) : BoundOK ρ ((dstOf ρ x (P.pts i) P.dim : ℝ) : WithTop ℝ) := by
  intro r hr
  have := WithTop.coe_injective hr
  subst this
  exact ⟨dstOf_nonneg _ _ _, dstOf_fix _ _ _⟩

theorem Best.boundOK {S : List Nat} {strict : Prop} {r0 r : Nat × WithTop ℝ} (h : BoundOK ρ r0.2)
    (hb : Best elig (fun q => dstOf ρ x (P.pts q) P.dim) strict S r0 r) : BoundOK ρ r.2 := by
  rcases hb.attained with h' | ⟨_, _, c, _⟩
  · rw [h']; exact h
  · rw [c]; exact BoundOK.of_dst _

theorem visit_smart {strict : Prop} (hstrict : strict → ρ = Rounding.exact) (i : Nat) {r : Nat × WithTop ℝ} (hb : BoundOK ρ r.2) :
    Best elig (fun q => dstOf ρ x (P.pts q) P.dim) strict [i] r
      (if elig i = true ∧ belowSq ρ (dstSq ρ x (P.pts i) P.dim) r.2
        then (i, ((dstOf ρ x (P.pts i) P.dim : ℝ) : WithTop ℝ)) else r) := by
  obtain ⟨c, b⟩ := r
  by_cases hc : elig i = true ∧ belowSq ρ (dstSq ρ x (P.pts i) P.dim) b
  · rw [if_pos hc]
    have hle : ((dstOf ρ x (P.pts i) P.dim : ℝ) : WithTop ℝ) ≤ b := by
      cases b with
      | top => exact le_top
      | coe b =>
        have := hb b rfl
        exact WithTop.coe_le_coe.2 (dst_le_of_sq this.1 this.2 (le_of_lt hc.2))
    refine ⟨hle, ?_, Or.inr ⟨by simp, hc.1, rfl, ?_⟩⟩
    · intro q hq _; simp at hq; subst hq; exact le_refl _
    · intro hs
      have := hstrict hs; subst this
      cases b with
      | top => exact WithTop.coe_lt_top _
      | coe b =>
        have h0 := hb b rfl
        have h1 : dstSq Rounding.exact x (P.pts i) P.dim < b * b := hc.2
        refine WithTop.coe_lt_coe.2 ?_
        show Real.sqrt _ < b
        rw [Real.sqrt_lt' (lt_of_le_of_ne h0.1 ?_)]
        · rw [pow_two]; exact h1
        · rintro rfl
          have := dstSq_nonneg (ρ := Rounding.exact) x (P.pts i) P.dim
          linarith
  · rw [if_neg hc]
    refine ⟨le_refl _, ?_, Or.inl rfl⟩
    intro q hq he
    simp at hq; subst hq
    have hn : ¬ belowSq ρ (dstSq ρ x (P.pts q) P.dim) b := fun h => hc ⟨he, h⟩
    cases b with
    | top => exact absurd trivial hn
    | coe b =>
      have := hb b rfl
      exact WithTop.coe_le_coe.2 (dst_ge_of_sq this.1 this.2 (not_lt.1 hn))

theorem visit_mesher {strict : Prop} (i : Nat) {r : Nat × WithTop ℝ} :
    Best elig (fun q => dstOf ρ x (P.pts q) P.dim) strict [i] r
      (if elig i = true ∧ ((dstOf ρ x (P.pts i) P.dim : ℝ) : WithTop ℝ) < r.2
        then (i, ((dstOf ρ x (P.pts i) P.dim : ℝ) : WithTop ℝ)) else r) := by
  by_cases hc : elig i = true ∧ ((dstOf ρ x (P.pts i) P.dim : ℝ) : WithTop ℝ) < r.2
  · rw [if_pos hc]
    refine ⟨le_of_lt hc.2, ?_, Or.inr ⟨by simp, hc.1, rfl, fun _ => hc.2⟩⟩
    intro q hq _; simp at hq; subst hq; exact le_refl _
  · rw [if_neg hc]
    refine ⟨le_refl _, ?_, Or.inl rfl⟩
    intro q hq he
    simp at hq; subst hq
    exact not_lt.1 (fun h => hc ⟨he, h⟩)

theorem closestSmart_spec {strict : Prop} (hstrict : strict → ρ = Rounding.exact) (hp : PruneOK ρ P x)
    (fuel : Nat) (t : KT) (d i : Nat) (r : Nat × WithTop ℝ) (hd : d < P.dim)
    (hrep : Rep ln.left ln.right i t) (hv : ∀ k ∈ t.idx, k < P.num) (hnd : t.idx.Nodup) (ho : Ordered P d t)
    (hf : t.idx.length ≤ fuel) (hb : BoundOK ρ r.2) :
    ∃ r', closestSmart ρ P ln elig x fuel d i r = some r' ∧ Best elig (fun q => dstOf ρ x (P.pts q) P.dim) strict t.idx r r' := by
  induction t generalizing fuel d i r with
  | nil => simp [Rep] at hrep
  | node j tl tr ihl ihr =>
    simp only [Rep] at hrep
    obtain ⟨rfl, hl, hr⟩ := hrep
    simp only [Ordered] at ho
    obtain ⟨ho1, ho2, ho3, ho4⟩ := ho
    simp only [KT.idx, List.length_cons, List.length_append] at hf
    obtain ⟨f, rfl⟩ : ∃ f, fuel = f + 1 := ⟨fuel - 1, by omega⟩
    have hi : i < P.num := hv i (by simp [KT.idx])
    have hvl : ∀ k ∈ tl.idx, k < P.num := fun k hk => hv k (by simp [KT.idx, hk])
    have hvr : ∀ k ∈ tr.idx, k < P.num := fun k hk => hv k (by simp [KT.idx, hk])
    simp only [KT.idx, List.nodup_cons, List.mem_append, not_or] at hnd
    obtain ⟨⟨hil, hir⟩, hnd⟩ := hnd
    obtain ⟨hndl, hndr, -⟩ := List.nodup_append.1 hnd
    have hd' := nextDim_lt hd
    rw [closestSmart]
    simp only [hi, hd, and_self, if_true]
    have hvis := visit_smart (ρ := ρ) (P := P) (elig := elig) (x := x) hstrict i hb
    set r1 := (if elig i = true ∧ belowSq ρ (dstSq ρ x (P.pts i) P.dim) r.2
        then (i, ((dstOf ρ x (P.pts i) P.dim : ℝ) : WithTop ℝ)) else r) with hr1
    have hb1 : BoundOK ρ r1.2 := hvis.boundOK hb
    -- facts about the two sides
    have skipL : ∀ b, BoundOK ρ b → ¬ (ln.left i ≠ i ∧ reachLeft ρ (x d) (P.pts i d) b) →
        ∀ q ∈ tl.idx, elig q = true → b ≤ (dstOf ρ x (P.pts q) P.dim : WithTop ℝ) := by
      intro b hbb hn q hq _
      rcases hl with ⟨h1, _⟩ | ⟨h1, _⟩
      · simp [h1, KT.idx] at hq
      · exact hp.left i q d b hi (hvl q hq) (fun e => hil (e ▸ hq)) hd (ho1 q hq) hbb (fun h => hn ⟨h1, h⟩)
    have skipR : ∀ b, BoundOK ρ b → ¬ (ln.right i ≠ i ∧ reachRight ρ (x d) (P.pts i d) b) →
        ∀ q ∈ tr.idx, elig q = true → b ≤ (dstOf ρ x (P.pts q) P.dim : WithTop ℝ) := by
      intro b hbb hn q hq _
      rcases hr with ⟨h1, _⟩ | ⟨h1, _⟩
      · simp [h1, KT.idx] at hq
      · exact hp.right i q d b hi (hvr q hq) hd (ho2 q hq) hbb (fun h => hn ⟨h1, h⟩)
    have recL : ln.left i ≠ i → ∀ r, BoundOK ρ r.2 → ∃ r', closestSmart ρ P ln elig x f (nextDim P.dim d) (ln.left i) r = some r' ∧
        Best elig (fun q => dstOf ρ x (P.pts q) P.dim) strict tl.idx r r' := by
      intro hne r hbr
      rcases hl with ⟨_, h1⟩ | ⟨_, h1⟩
      · exact absurd h1 hne
      · exact ihl f _ _ r hd' h1 hvl hndl ho3 (by omega) hbr
    have recR : ln.right i ≠ i → ∀ r, BoundOK ρ r.2 → ∃ r', closestSmart ρ P ln elig x f (nextDim P.dim d) (ln.right i) r = some r' ∧
        Best elig (fun q => dstOf ρ x (P.pts q) P.dim) strict tr.idx r r' := by
      intro hne r hbr
      rcases hr with ⟨_, h1⟩ | ⟨_, h1⟩
      · exact absurd h1 hne
      · exact ihr f _ _ r hd' h1 hvr hndr ho4 (by omega) hbr
    by_cases hR : ln.right i ≠ i ∧ reachRight ρ (x d) (P.pts i d) r1.2
    · by_cases hL : ln.left i ≠ i ∧ reachLeft ρ (x d) (P.pts i d) r1.2
      · rw [if_pos ⟨hR, hL⟩]
        by_cases hx : P.pts i d < x d
        · rw [if_pos hx]
          obtain ⟨r2, e2, hB2⟩ := recR hR.1 r1 hb1
          have hb2 := hB2.boundOK hb1
          simp only [e2]
          by_cases hL2 : reachLeft ρ (x d) (P.pts i d) r2.2
          · rw [if_pos hL2]
            obtain ⟨r3, e3, hB3⟩ := recL hL.1 r2 hb2
            exact ⟨r3, e3, ((hvis.trans hB2).trans hB3).of_subset (by first | exact kt_mem_rl _ _ _ | exact kt_mem_lr _ _ _)⟩
          · rw [if_neg hL2]
            exact ⟨r2, rfl, ((hvis.trans hB2).skip (skipL _ hb2 (fun h => hL2 h.2))).of_subset (by first | exact kt_mem_rl _ _ _ | exact kt_mem_lr _ _ _)⟩
        · rw [if_neg hx]
          obtain ⟨r2, e2, hB2⟩ := recL hL.1 r1 hb1
          have hb2 := hB2.boundOK hb1
          simp only [e2]
          by_cases hR2 : reachRight ρ (x d) (P.pts i d) r2.2
          · rw [if_pos hR2]
            obtain ⟨r3, e3, hB3⟩ := recR hR.1 r2 hb2
            exact ⟨r3, e3, ((hvis.trans hB2).trans hB3).of_subset (by first | exact kt_mem_rl _ _ _ | exact kt_mem_lr _ _ _)⟩
          · rw [if_neg hR2]
            exact ⟨r2, rfl, ((hvis.trans hB2).skip (skipR _ hb2 (fun h => hR2 h.2))).of_subset (by first | exact kt_mem_rl _ _ _ | exact kt_mem_lr _ _ _)⟩
      · rw [if_neg (fun h => hL h.2), if_pos hR]
        obtain ⟨r2, e2, hB2⟩ := recR hR.1 r1 hb1
        exact ⟨r2, e2, ((hvis.skip (skipL _ hb1 hL)).trans hB2).of_subset (by first | exact kt_mem_rl _ _ _ | exact kt_mem_lr _ _ _)⟩
    · rw [if_neg (fun h => hR h.1), if_neg hR]
      by_cases hL : ln.left i ≠ i ∧ reachLeft ρ (x d) (P.pts i d) r1.2
      · rw [if_pos hL]
        obtain ⟨r2, e2, hB2⟩ := recL hL.1 r1 hb1
        exact ⟨r2, e2, ((hvis.skip (skipR _ hb1 hR)).trans hB2).of_subset (by first | exact kt_mem_rl _ _ _ | exact kt_mem_lr _ _ _)⟩
      · rw [if_neg hL]
        exact ⟨r1, rfl, ((hvis.skip (skipR _ hb1 hR)).skip (skipL _ hb1 hL)).of_subset (by first | exact kt_mem_rl _ _ _ | exact kt_mem_lr _ _ _)⟩

theorem closestMesher_spec {strict : Prop} (hp : PruneOK ρ P x)
    (fuel : Nat) (t : KT) (d i : Nat) (r : Nat × WithTop ℝ) (hd : d < P.dim)
    (hrep : Rep ln.left ln.right i t) (hv : ∀ k ∈ t.idx, k < P.num) (hnd : t.idx.Nodup) (ho : Ordered P d t)
    (hf : t.idx.length ≤ fuel) (hb : BoundOK ρ r.2) :
    ∃ r', closestMesher ρ P ln elig x fuel d i r = some r' ∧ Best elig (fun q => dstOf ρ x (P.pts q) P.dim) strict t.idx r r' := by
  induction t generalizing fuel d i r with
  | nil => simp [Rep] at hrep
  | node j tl tr ihl ihr =>
    simp only [Rep] at hrep
    obtain ⟨rfl, hl, hr⟩ := hrep
    simp only [Ordered] at ho
    obtain ⟨ho1, ho2, ho3, ho4⟩ := ho
    simp only [KT.idx, List.length_cons, List.length_append] at hf
    obtain ⟨f, rfl⟩ : ∃ f, fuel = f + 1 := ⟨fuel - 1, by omega⟩
    have hi : i < P.num := hv i (by simp [KT.idx])
    have hvl : ∀ k ∈ tl.idx, k < P.num := fun k hk => hv k (by simp [KT.idx, hk])
    have hvr : ∀ k ∈ tr.idx, k < P.num := fun k hk => hv k (by simp [KT.idx, hk])
    simp only [KT.idx, List.nodup_cons, List.mem_append, not_or] at hnd
    obtain ⟨⟨hil, hir⟩, hnd⟩ := hnd
    obtain ⟨hndl, hndr, -⟩ := List.nodup_append.1 hnd
    have hd' := nextDim_lt hd
    rw [closestMesher]
    simp only [hi, hd, and_self, if_true]
    have hvis := visit_mesher (ρ := ρ) (P := P) (elig := elig) (x := x) (strict := strict) i (r := r)
    set r1 := (if elig i = true ∧ ((dstOf ρ x (P.pts i) P.dim : ℝ) : WithTop ℝ) < r.2
        then (i, ((dstOf ρ x (P.pts i) P.dim : ℝ) : WithTop ℝ)) else r) with hr1
    have hb1 : BoundOK ρ r1.2 := hvis.boundOK hb
    have skipL : ∀ b, BoundOK ρ b → ¬ (ln.left i ≠ i ∧ reachLeft ρ (x d) (P.pts i d) b) →
        ∀ q ∈ tl.idx, elig q = true → b ≤ (dstOf ρ x (P.pts q) P.dim : WithTop ℝ) := by
      intro b hbb hn q hq _
      rcases hl with ⟨h1, _⟩ | ⟨h1, _⟩
      · simp [h1, KT.idx] at hq
      · exact hp.left i q d b hi (hvl q hq) (fun e => hil (e ▸ hq)) hd (ho1 q hq) hbb (fun h => hn ⟨h1, h⟩)
    have skipR : ∀ b, BoundOK ρ b → ¬ (ln.right i ≠ i ∧ reachRight ρ (x d) (P.pts i d) b) →
        ∀ q ∈ tr.idx, elig q = true → b ≤ (dstOf ρ x (P.pts q) P.dim : WithTop ℝ) := by
      intro b hbb hn q hq _
      rcases hr with ⟨h1, _⟩ | ⟨h1, _⟩
      · simp [h1, KT.idx] at hq
      · exact hp.right i q d b hi (hvr q hq) hd (ho2 q hq) hbb (fun h => hn ⟨h1, h⟩)
    obtain ⟨r2, e2, hB2⟩ : ∃ r2, (if ln.right i ≠ i ∧ reachRight ρ (x d) (P.pts i d) r1.2
          then closestMesher ρ P ln elig x f (nextDim P.dim d) (ln.right i) r1 else some r1) = some r2 ∧
        Best elig (fun q => dstOf ρ x (P.pts q) P.dim) strict ([i] ++ tr.idx) r r2 := by
      by_cases hR : ln.right i ≠ i ∧ reachRight ρ (x d) (P.pts i d) r1.2
      · rw [if_pos hR]
        rcases hr with ⟨_, h1⟩ | ⟨_, h1⟩
        · exact absurd h1 hR.1
        · obtain ⟨r2, e2, hB⟩ := ihr f _ _ r1 hd' h1 hvr hndr ho4 (by omega) hb1
          exact ⟨r2, e2, hvis.trans hB⟩
      · rw [if_neg hR]
        exact ⟨r1, rfl, hvis.skip (skipR _ hb1 hR)⟩
    have hb2 : BoundOK ρ r2.2 := hB2.boundOK hb
    simp only [e2]
    by_cases hL : ln.left i ≠ i ∧ reachLeft ρ (x d) (P.pts i d) r2.2
    · rw [if_pos hL]
      rcases hl with ⟨_, h1⟩ | ⟨_, h1⟩
      · exact absurd h1 hL.1
      · obtain ⟨r3, e3, hB3⟩ := ihl f _ _ r2 hd' h1 hvl hndl ho3 (by omega) hb2
        exact ⟨r3, e3, (hB2.trans hB3).of_subset (by first | exact kt_mem_rl _ _ _ | exact kt_mem_lr _ _ _)⟩
    · rw [if_neg hL]
      exact ⟨r2, rfl, (hB2.skip (skipL _ hb2 hL)).of_subset (by first | exact kt_mem_rl _ _ _ | exact kt_mem_lr _ _ _)⟩

theorem closestQuery_spec {strict : Prop} (hstrict : strict → ρ = Rounding.exact) (hp : PruneOK ρ P x) {t : KT} (hD : 0 < P.dim)
    (hok : TreeOK P ln t) (hne : t ≠ .nil) (mesher : Bool) {bound : WithTop ℝ} (hb : BoundOK ρ bound) :
    ∃ r', closestQuery ρ P ln elig x mesher bound = some r' ∧
      Best elig (fun q => dstOf ρ x (P.pts q) P.dim) strict t.idx (P.num, bound) r' := by
  rcases hok.root with ⟨_, h1⟩ | ⟨o, ho, hrep⟩
  · exact absurd h1 hne
  · simp only [closestQuery, ho]
    have hf := length_le_of_nodup_lt hok.nodup hok.valid
    cases mesher
    · rw [if_neg (by simp)]
      exact closestSmart_spec hstrict hp P.num t 0 o _ hD hrep hok.valid hok.nodup hok.ordered hf hb
    · rw [if_pos rfl]
      exact closestMesher_spec hp P.num t 0 o _ hD hrep hok.valid hok.nodup hok.ordered hf hb

/-! ## In-sphere -/

theorem seedsInSphere_spec {accept : ℝ → Prop} {rad : ℝ} (near : Nat → Prop)
    (hR : ∀ i q d, i < P.num → q < P.num → d < P.dim → P.lt (P.pts i d) (P.pts q d) = true → near q →
      P.pts i d < ρ.rnd (x d + rad))
    (hL : ∀ i q d, i < P.num → q < P.num → i ≠ q → d < P.dim → P.lt (P.pts i d) (P.pts q d) = false → near q →
      ρ.rnd (x d - rad) < P.pts i d)
    (fuel : Nat) (t : KT) (d i : Nat) (hd : d < P.dim)
    (hrep : Rep ln.left ln.right i t) (hv : ∀ k ∈ t.idx, k < P.num) (hnd : t.idx.Nodup) (ho : Ordered P d t)
    (hf : t.idx.length ≤ fuel) :
    ∃ l, seedsInSphere ρ P ln elig accept x rad fuel d i = some l ∧ l.Nodup ∧ l.length ≤ t.idx.length ∧
      (∀ q ∈ l, q ∈ t.idx ∧ elig q = true ∧ accept (dstSq ρ x (P.pts q) P.dim)) ∧
      (∀ q ∈ t.idx, elig q = true → accept (dstSq ρ x (P.pts q) P.dim) → near q → q ∈ l) := by
  induction t generalizing fuel d i with
  | nil => simp [Rep] at hrep
  | node j tl tr ihl ihr =>
    simp only [Rep] at hrep
    obtain ⟨rfl, hl, hr⟩ := hrep
    simp only [Ordered] at ho
    obtain ⟨ho1, ho2, ho3, ho4⟩ := ho
    simp only [KT.idx, List.length_cons, List.length_append] at hf
    obtain ⟨f, rfl⟩ : ∃ f, fuel = f + 1 := ⟨fuel - 1, by omega⟩
    have hi : i < P.num := hv i (by simp [KT.idx])
    have hvl : ∀ k ∈ tl.idx, k < P.num := fun k hk => hv k (by simp [KT.idx, hk])
    have hvr : ∀ k ∈ tr.idx, k < P.num := fun k hk => hv k (by simp [KT.idx, hk])
    simp only [KT.idx, List.nodup_cons, List.mem_append, not_or] at hnd
    obtain ⟨⟨hil, hir⟩, hnd⟩ := hnd
    obtain ⟨hndl, hndr, hdis⟩ := List.nodup_append.1 hnd
    have hd' := nextDim_lt hd
    rw [seedsInSphere]
    simp only [hi, hd, and_self, if_true]
    obtain ⟨rs, eR, rn, rlen, rsub, rcomp⟩ : ∃ rs, (if ln.right i ≠ i ∧ P.pts i d < ρ.rnd (x d + rad)
          then seedsInSphere ρ P ln elig accept x rad f (nextDim P.dim d) (ln.right i) else some []) = some rs ∧ rs.Nodup ∧
        rs.length ≤ tr.idx.length ∧
        (∀ q ∈ rs, q ∈ tr.idx ∧ elig q = true ∧ accept (dstSq ρ x (P.pts q) P.dim)) ∧
        (∀ q ∈ tr.idx, elig q = true → accept (dstSq ρ x (P.pts q) P.dim) → near q → q ∈ rs) := by
      by_cases hc : ln.right i ≠ i ∧ P.pts i d < ρ.rnd (x d + rad)
      · rw [if_pos hc]
        rcases hr with ⟨_, h1⟩ | ⟨_, h1⟩
        · exact absurd h1 hc.1
        · exact ihr f _ _ hd' h1 hvr hndr ho4 (by omega)
      · rw [if_neg hc]
        refine ⟨[], rfl, List.nodup_nil, by simp, by simp, ?_⟩
        intro q hq _ _ hnear
        rcases hr with ⟨h1, _⟩ | ⟨h1, _⟩
        · simp [h1, KT.idx] at hq
        · exact absurd ⟨h1, hR i q d hi (hvr q hq) hd (ho2 q hq) hnear⟩ hc
    obtain ⟨ls, eL, lnd, llen, lsub, lcomp⟩ : ∃ ls, (if ln.left i ≠ i ∧ ρ.rnd (x d - rad) < P.pts i d
          then seedsInSphere ρ P ln elig accept x rad f (nextDim P.dim d) (ln.left i) else some []) = some ls ∧ ls.Nodup ∧
        ls.length ≤ tl.idx.length ∧
        (∀ q ∈ ls, q ∈ tl.idx ∧ elig q = true ∧ accept (dstSq ρ x (P.pts q) P.dim)) ∧
        (∀ q ∈ tl.idx, elig q = true → accept (dstSq ρ x (P.pts q) P.dim) → near q → q ∈ ls) := by
      by_cases hc : ln.left i ≠ i ∧ ρ.rnd (x d - rad) < P.pts i d
      · rw [if_pos hc]
        rcases hl with ⟨_, h1⟩ | ⟨_, h1⟩
        · exact absurd h1 hc.1
        · exact ihl f _ _ hd' h1 hvl hndl ho3 (by omega)
      · rw [if_neg hc]
        refine ⟨[], rfl, List.nodup_nil, by simp, by simp, ?_⟩
        intro q hq _ _ hnear
        rcases hl with ⟨h1, _⟩ | ⟨h1, _⟩
        · simp [h1, KT.idx] at hq
        · exact absurd ⟨h1, hL i q d hi (hvl q hq) (fun e => hil (e ▸ hq)) hd (ho1 q hq) hnear⟩ hc
    simp only [eR, eL]
    refine ⟨_, rfl, ?_, ?_, ?_, ?_⟩
    · have h0 : (rs ++ ls).Nodup := List.nodup_append.2 ⟨rn, lnd, fun a ha b hb e => hdis b (lsub b hb).1 a (rsub a ha).1 e.symm⟩
      split
      · rw [List.append_assoc, List.singleton_append, List.nodup_cons]
        refine ⟨?_, h0⟩
        intro hm
        rcases List.mem_append.1 hm with hm | hm
        · exact hir (rsub i hm).1
        · exact hil (lsub i hm).1
      · simpa using h0
    · simp only [List.length_append, KT.idx, List.length_cons]
      have : (if elig i = true ∧ accept (dstSq ρ x (P.pts i) P.dim) then [i] else []).length ≤ 1 := by split <;> simp
      omega
    · intro q hq
      rcases List.mem_append.1 hq with hq | hq
      · rcases List.mem_append.1 hq with hq | hq
        · split at hq
          · rename_i hc
            simp at hq; subst hq
            exact ⟨by simp [KT.idx], hc⟩
          · simp at hq
        · have := rsub q hq; exact ⟨by simp [KT.idx, this.1], this.2⟩
      · have := lsub q hq; exact ⟨by simp [KT.idx, this.1], this.2⟩
    · intro q hq he ha hn
      simp only [KT.idx, List.mem_cons, List.mem_append] at hq
      rcases hq with rfl | hq | hq
      · simp [he, ha]
      · exact List.mem_append_right _ (lcomp q hq he ha hn)
      · exact List.mem_append_left _ (List.mem_append_right _ (rcomp q hq he ha hn))

end

end VoroCrust
