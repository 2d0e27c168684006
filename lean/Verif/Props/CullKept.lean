import Verif.Props.Culling

/-!
# What is true of the written monitoring points (C73)
-/

namespace VoroCrust

theorem mem_keepSeeds (keep : Nat → Bool) (xs : List SeedRec) (i : Nat) (b : SeedRec) (hb : xs[i]? = some b) (hk : keep i = true) : b ∈ keepSeeds keep xs := by
  unfold keepSeeds
  refine List.mem_map.2 ⟨(b, i), List.mem_filter.2 ⟨?_, hk⟩, rfl⟩
  exact List.mem_zipIdx_iff_getElem?.2 hb

/-- C73, what is proven of it: if the seeds closest to the imposed points that are moved are among the first `prot`, which are never removed, or outside the spheres of all imposed points that are seeds, every point that is moved is written
with the place and the size of a seed of the resulting mesh.  Missing is the case of a closest seed inside of such a sphere, where it is false, see `C73_monitoring_point_removed_false`. -/
theorem C73_moved_partial (prot : Nat) (seeds : List SeedRec) (imposed : List (Nat → ℝ)) (hne : seeds ≠ []) (hr : ∀ x ∈ imposed, 0 ≤ x 3)
    (hfar : ∀ x ∈ imposed, ¬ MatchedSeed seeds x → ∀ (i : Nat) (a : SeedRec), seeds[i]? = some a → (∀ q ∈ seeds, euclid 3 x a.x ≤ euclid 3 x q.x) →
      i < prot ∨ ∀ y ∈ imposed, MatchedSeed seeds y → (1 + 2e-6) * y 3 ^ 2 ≤ euclidSq 3 y a.x) :
    ∃ (out : List SeedRec) (ps : List (Nat → ℝ)), imposeMonitoring prot seeds imposed = some (out, ps) ∧ ps.length = imposed.length ∧
      ∀ (k : Nat) (x p : Nat → ℝ), imposed[k]? = some x → ps[k]? = some p → ¬ MatchedSeed seeds x → ∃ s ∈ out, p 3 = s.size ∧ ∀ d, d < 3 → p d = s.x d := by
  obtain ⟨keep, ss, ps, e, -, -, -, h3, -, h5⟩ := C57_removal prot seeds imposed hne hr
  refine ⟨_, ps, e, h5.length_eq.symm, fun k x p hx hp hm => ?_⟩
  obtain ⟨hi, rfl⟩ := List.getElem?_eq_some_iff.1 hx
  obtain ⟨hj, rfl⟩ := List.getElem?_eq_some_iff.1 hp
  have hmem := List.getElem_mem hi
  rcases (List.forall₂_iff_get.1 h5).2 k hi hj with ⟨hb, -⟩ | ⟨-, c, a, b, ha, hb, hmin, hs, hd⟩
  · exact absurd hb hm
  · refine ⟨b, mem_keepSeeds keep ss c b hb ?_, hs, hd⟩
    by_contra hk
    obtain ⟨h6, y, hy, hym, hlt⟩ := h3 c a ha (by simpa using hk)
    rcases hfar _ hmem hm c a ha hmin with h7 | h7
    · omega
    · exact absurd hlt (not_lt.2 (h7 y hy hym))

/-- An imposed point on the first seed with radius 1/2, and one near the second seed, which is moved to it. -/
example : ∃ (out : List SeedRec) (ps : List (Nat → ℝ)), imposeMonitoring 1 mSeeds [fun d => if d = 3 then 1 / 2 else 0, fun d => if d = 0 then 11 / 10 else 0] = some (out, ps) ∧
    ∃ p, ps[1]? = some p ∧ ∃ s ∈ out, p 3 = s.size ∧ ∀ d, d < 3 → p d = s.x d := by
  obtain ⟨out, ps, e, hl, h⟩ := C73_moved_partial 1 mSeeds [fun d => if d = 3 then 1 / 2 else 0, fun d => if d = 0 then 11 / 10 else 0] (by simp [mSeeds]) (by
    intro x hx
    rcases List.mem_pair.1 hx with rfl | rfl <;> norm_num) (by
    intro x _ _ i a ha _
    rcases i with _ | _ | i
    · exact Or.inl (by omega)
    · refine Or.inr (fun y hy _ => ?_)
      simp only [mSeeds, List.getElem?_cons_succ, List.getElem?_cons_zero, Option.some.injEq] at ha
      subst ha
      rcases List.mem_pair.1 hy with rfl | rfl
      · simp [euclidSq, Finset.sum_range_succ]
        norm_num
      · have : (0 : ℝ) ≤ euclidSq 3 (fun d => if d = 0 then 11 / 10 else 0) (fun d => if d = 0 then 1 else 0) := Finset.sum_nonneg (fun _ _ => sq_nonneg _)
        simpa using this
    · simp [mSeeds] at ha)
  refine ⟨out, ps, e, ps[1]'(by rw [hl]; simp), List.getElem?_eq_getElem _, ?_⟩
  refine h 1 _ _ rfl (List.getElem?_eq_getElem _) ?_
  rintro ⟨q, hq, hd⟩
  simp only [mSeeds, List.mem_cons, List.not_mem_nil, or_false] at hq
  rcases hq with rfl | rfl
  · rw [euclid3_axis _ _ (by simp) (by simp)] at hd
    norm_num [abs_of_pos] at hd
  · rw [euclid3_axis _ _ (by simp) (by simp)] at hd
    norm_num [abs_of_pos] at hd

end VoroCrust
