import Verif.Props.Imposed
import Mathlib.Tactic.IntervalCases

/-! # The in-sphere query at its boundary: C08

The query accepts points up to `(1 + 2e-6) r²`, but it prunes subtrees with `r` itself.  A point on the boundary is therefore found when no single coordinate reaches `r`. -/

namespace VoroCrust

open Classical

/-- **C08.** On any built tree the in-sphere query finds every eligible stored point that passes its distance test (squared distance below `(1 + 2e-6) r²`) and whose coordinates all differ from
those of the centre by less than `r`: points exactly on the sphere are found unless they are its extreme points along an axis. -/
theorem C08_in_sphere_boundary (P : PointStore ℝ) (ln : Links) (h : RealTree P ln) (elig : Nat → Bool) (x : Nat → ℝ) (r : ℝ) :
    ∃ l, sphereQuery Rounding.exact P ln elig (inSphereTest r) x r = some l ∧ l.Nodup ∧
      (∀ q ∈ l, q < P.num ∧ elig q = true ∧ euclidSq P.dim x (P.pts q) < (1 + 2e-6) * r ^ 2) ∧
      ∀ q, q < P.num → elig q = true → euclidSq P.dim x (P.pts q) < (1 + 2e-6) * r ^ 2 → (∀ d, d < P.dim → |x d - P.pts q d| < r) → q ∈ l := by
  obtain ⟨t, hok, hne, hmem⟩ := h.ok
  rcases hok.root with ⟨_, h1⟩ | ⟨o, ho, hrep⟩
  · exact absurd h1 hne
  · obtain ⟨l, e, h1, -, h2, h3⟩ := seedsInSphere_spec (ρ := Rounding.exact) (P := P) (ln := ln) (elig := elig) (x := x) (accept := inSphereTest r) (rad := r)
      (fun q => ∀ d, d < P.dim → |x d - P.pts q d| < r)
      (by
        intro i q d hi hq hd hpq hnear
        by_contra hc
        rw [h.1] at hpq; simp only [realLt, decide_eq_true_eq] at hpq
        exact absurd (hnear d hd) (not_lt.2 (prune_right (ρ := Rounding.exact) rfl rfl hpq hc)))
      (by
        intro i q d hi hq _ hd hpq hnear
        by_contra hc
        rw [h.1] at hpq; simp only [realLt, decide_eq_false_iff_not, not_lt] at hpq
        exact absurd (hnear d hd) (not_lt.2 (prune_left_exact hpq hc)))
      P.num t 0 o h.2.1 hrep hok.valid hok.nodup hok.ordered (length_le_of_nodup_lt hok.nodup hok.valid)
    simp only [dstSq_exact] at h2 h3
    refine ⟨l, by simp [sphereQuery, ho, e], h1, ?_, ?_⟩
    · intro q hq
      have := h2 q hq
      unfold inSphereTest at this
      refine ⟨(hmem q).1 this.1, this.2.1, ?_⟩
      rw [pow_two, ← mul_assoc]; exact this.2.2
    · intro q hq he ha hn
      refine h3 q ((hmem q).2 hq) he ?_ hn
      unfold inSphereTest
      rw [pow_two, ← mul_assoc] at ha; exact ha

theorem nearRecs_boundary {T : MTree} {xs : List SeedRec} (h : T.Holds xs) (x : Nat → ℝ) (R : ℝ) :
    ∃ l, nearRecs T x R = some l ∧ l.Nodup ∧ (∀ i ∈ l, ∃ s, xs[i]? = some s ∧ euclidSq 3 x s.x < (1 + 2e-6) * R ^ 2) ∧
      ∀ i s, xs[i]? = some s → euclidSq 3 x s.x < (1 + 2e-6) * R ^ 2 → (∀ d, d < 3 → |x d - s.x d| < R) → i ∈ l := by
  obtain ⟨l, e, h1, h2, h3⟩ := C08_in_sphere_boundary T.P T.ln h.tree (fun _ => true) x R
  obtain ⟨os, eo, h4, h5⟩ := oldIndices_spec h (l := l) (fun i hi => by rw [← h.num]; exact (h2 i hi).1) h1
  refine ⟨os, ?_, h4, ?_, ?_⟩
  · unfold nearRecs; rw [e]; exact eo
  · intro o ho
    obtain ⟨i, hi, ei⟩ := (h5 o).1 ho
    obtain ⟨q1, -, q2⟩ := h2 i hi
    rw [h.num] at q1
    obtain ⟨o', s, h6, h7, h8⟩ := h.old i q1
    have : o' = o := Option.some.inj (h6.symm.trans ei)
    subst this
    rw [h.dim, h8] at q2
    exact ⟨s, h7, q2⟩
  · intro o s hs hd hb
    obtain ⟨ho, -⟩ := List.getElem?_eq_some_iff.1 hs
    obtain ⟨i, hi, ei⟩ := h.onto o ho
    obtain ⟨o', s', h6, h7, h8⟩ := h.old i hi
    have : o' = o := Option.some.inj (h6.symm.trans ei)
    subst this
    have hs' : s' = s := Option.some.inj (h7.symm.trans hs)
    subst hs'
    exact (h5 o').2 ⟨i, h3 i (by rw [h.num]; exact hi) rfl (by rw [h.dim, h8]; exact hd) (by rw [h.dim, h8]; exact hb), ei⟩

/-- A point exactly on the sphere is found: `(3, 4, 0)` at distance 5 from the origin. -/
example (xs : List SeedRec) (hxs : xs = [⟨fun d => if d = 0 then 3 else if d = 1 then 4 else 0, 1, 0⟩, ⟨fun _ => 9, 1, 0⟩]) : ∃ ln l, buildBalanced (recStore xs) false = some ln ∧
    sphereQuery Rounding.exact (recStore xs) ln (fun _ => true) (inSphereTest 5) (fun _ => 0) 5 = some l ∧ 0 ∈ l ∧ 1 ∉ l := by
  obtain ⟨ln, e, h⟩ := recTree false (xs := xs) (by simp [hxs])
  obtain ⟨l, el, -, h2, h3⟩ := C08_in_sphere_boundary _ ln h (fun _ => true) (fun _ => 0) 5
  subst hxs
  refine ⟨ln, l, e, el, h3 0 (by simp [recStore]) rfl ?_ ?_, fun h1 => ?_⟩
  · norm_num [recStore, euclidSq, Finset.sum_range_succ]
  · intro d hd
    have hd3 : d < 3 := by simpa [recStore] using hd
    interval_cases d <;> norm_num [recStore]
  · have := (h2 1 h1).2.2
    norm_num [recStore, euclidSq, Finset.sum_range_succ] at this

end VoroCrust
