import Verif.Props.Cover

/-! # Properties C29 and C30: resolving slivers, power vertex of two spheres -/

namespace VoroCrust

/-! ## C29 -/

/-- Sphere `l` can be shrunk to lose the nearer of the two points common to the spheres of the triple `t`: it is not fixed, not one
of the triple, and the point, at distance `h` of its centre, lies inside by more than the tolerance. -/
structure SliverChoice (n : Nat) (rad : Nat → ℝ) (fixed : Nat → Bool) (hm : Nat × Nat × Nat → Nat → Option ℝ) (t : Nat × Nat × Nat) (l : Nat) (h : ℝ) : Prop where
  triple : t.1 < t.2.1 ∧ t.2.1 < t.2.2 ∧ t.2.2 < n
  sphere : l < n
  free : fixed l = false
  outside : l ≠ t.1 ∧ l ≠ t.2.1 ∧ l ≠ t.2.2
  dist : hm t l = some h
  inside : h ≤ rad l - 1e-10

/-- The scan has looked at the choices satisfying `seen`. -/
def ScanOf (n : Nat) (rad : Nat → ℝ) (fixed : Nat → Bool) (hm : Nat × Nat × Nat → Nat → Option ℝ) (r0 : ℝ)
    (seen : Nat × Nat × Nat → Nat → Prop) (s : Sliver) : Prop :=
  (s.drMin = ⊤ ∧ s.index = n ∧ s.radius = r0 ∧ ∀ t l h, seen t l → ¬ SliverChoice n rad fixed hm t l h) ∨
    ∃ t h, SliverChoice n rad fixed hm t s.index h ∧ s.radius = h * 0.95 ∧ s.drMin = ((rad s.index - h * 0.95 : ℝ) : WithTop ℝ) ∧
      ∀ t' l' h', seen t' l' → SliverChoice n rad fixed hm t' l' h' → rad s.index - h * 0.95 ≤ rad l' - h' * 0.95

variable {n : Nat} {rad : Nat → ℝ} {fixed : Nat → Bool} {hm : Nat × Nat × Nat → Nat → Option ℝ} {r0 : ℝ}

theorem ScanOf.skip {seen : Nat × Nat × Nat → Nat → Prop} {s : Sliver} (h : ScanOf n rad fixed hm r0 seen s) {seen' : Nat × Nat × Nat → Nat → Prop}
    (hs : ∀ t l h, seen' t l → SliverChoice n rad fixed hm t l h → seen t l) : ScanOf n rad fixed hm r0 seen' s := by
  rcases h with ⟨h1, h2, h3, h4⟩ | ⟨t, h, h1, h2, h3, h4⟩
  · exact Or.inl ⟨h1, h2, h3, fun t l h hl hc => h4 t l h (hs t l h hl hc) hc⟩
  · exact Or.inr ⟨t, h, h1, h2, h3, fun t' l' h' hl hc => h4 t' l' h' (hs t' l' h' hl hc) hc⟩

theorem sliverCandidate_scan {seen : Nat × Nat × Nat → Nat → Prop} {s : Sliver} {t : Nat × Nat × Nat} {l : Nat}
    (ht : t.1 < t.2.1 ∧ t.2.1 < t.2.2 ∧ t.2.2 < n) (hl : l < n) (h : ScanOf n rad fixed hm r0 seen s) :
    ScanOf n rad fixed hm r0 (fun t' l' => seen t' l' ∨ (t' = t ∧ l' = l)) (sliverCandidate rad fixed t (hm t l) l s) := by
  have stay : (∀ h, ¬ SliverChoice n rad fixed hm t l h) → ScanOf n rad fixed hm r0 (fun t' l' => seen t' l' ∨ (t' = t ∧ l' = l)) s := by
    intro hno
    refine h.skip fun t' l' h' hs hc => ?_
    rcases hs with hs | ⟨rfl, rfl⟩
    · exact hs
    · exact absurd hc (hno h')
  unfold sliverCandidate
  split
  · next hf => exact stay fun h hc => by rw [hc.free] at hf; cases hf
  · next hf =>
    split
    · next ho =>
      refine stay fun h hc => ?_
      rcases ho with ho | ho | ho
      · exact hc.outside.1 ho
      · exact hc.outside.2.1 ho
      · exact hc.outside.2.2 ho
    · next ho =>
      split
      · next e => exact stay fun h hc => by rw [hc.dist] at e; cases e
      · next x e =>
        split
        · next hx =>
          refine stay fun h hc => ?_
          have := hc.dist
          rw [e] at this
          cases this
          exact absurd hc.inside (not_le.2 hx)
        · next hx =>
          simp only [not_or] at ho
          have hcand : SliverChoice n rad fixed hm t l x := ⟨ht, hl, by simpa using hf, ho, e, not_lt.1 hx⟩
          have huniq : ∀ h', SliverChoice n rad fixed hm t l h' → h' = x := fun h' hc => by
            have := hc.dist; rw [e] at this; exact (Option.some.inj this).symm
          split
          · next hlt =>
            refine Or.inr ⟨t, x, hcand, rfl, rfl, fun t' l' h' hs hc => ?_⟩
            rcases hs with hs | ⟨rfl, rfl⟩
            · rcases h with ⟨-, -, -, h4⟩ | ⟨t0, h0, -, -, h3, h4⟩
              · exact absurd hc (h4 t' l' h' hs)
              · rw [h3, WithTop.coe_lt_coe] at hlt
                exact hlt.le.trans (h4 t' l' h' hs hc)
            · rw [huniq h' hc]
          · next hge =>
            rcases h with ⟨h1, -, -, -⟩ | ⟨t0, h0, h1, h2, h3, h4⟩
            · rw [h1] at hge; exact absurd (WithTop.coe_lt_top _) hge
            · refine Or.inr ⟨t0, h0, h1, h2, h3, fun t' l' h' hs hc => ?_⟩
              rcases hs with hs | ⟨rfl, rfl⟩
              · exact h4 t' l' h' hs hc
              · rw [h3, WithTop.coe_lt_coe, not_lt] at hge
                rw [huniq h' hc]; exact hge

theorem sliverLoop_scan {t : Nat × Nat × Nat} (ht : t.1 < t.2.1 ∧ t.2.1 < t.2.2 ∧ t.2.2 < n) (ls : List Nat) (hls : ∀ l ∈ ls, l < n)
    {seen : Nat × Nat × Nat → Nat → Prop} {s : Sliver} (h : ScanOf n rad fixed hm r0 seen s) :
    ScanOf n rad fixed hm r0 (fun t' l' => seen t' l' ∨ (t' = t ∧ l' ∈ ls)) (sliverLoop rad fixed t (hm t) ls s) := by
  induction ls generalizing seen s with
  | nil => exact h.skip fun t' l' _ hs _ => by simpa using hs
  | cons l ls ih =>
    have := ih (fun k hk => hls k (by simp [hk])) (sliverCandidate_scan ht (hls l (by simp)) h)
    refine this.skip fun t' l' _ hs _ => ?_
    rcases hs with hs | ⟨h1, h2⟩
    · exact Or.inl (Or.inl hs)
    · rcases List.mem_cons.1 h2 with h2 | h2
      · exact Or.inl (Or.inr ⟨h1, h2⟩)
      · exact Or.inr ⟨h1, h2⟩

theorem sliverTriples_scan (ts : List (Nat × Nat × Nat)) (hts : ∀ t ∈ ts, t.1 < t.2.1 ∧ t.2.1 < t.2.2 ∧ t.2.2 < n)
    {seen : Nat × Nat × Nat → Nat → Prop} {s : Sliver} (h : ScanOf n rad fixed hm r0 seen s) :
    ScanOf n rad fixed hm r0 (fun t' l' => seen t' l' ∨ (t' ∈ ts ∧ l' < n)) (sliverTriples n rad fixed hm ts s) := by
  induction ts generalizing seen s with
  | nil => exact h.skip fun t' l' _ hs _ => by simpa using hs
  | cons t ts ih =>
    have := ih (fun k hk => hts k (by simp [hk])) (sliverLoop_scan (hts t (by simp)) (List.range n) (fun l hl => List.mem_range.1 hl) h)
    refine this.skip fun t' l' _ hs _ => ?_
    rcases hs with hs | ⟨h1, h2⟩
    · exact Or.inl (Or.inl hs)
    · rcases List.mem_cons.1 h1 with h1 | h1
      · exact Or.inl (Or.inr ⟨h1, List.mem_range.2 h2⟩)
      · exact Or.inr ⟨h1, h2⟩

theorem mem_triplesUp {n : Nat} {t : Nat × Nat × Nat} : t ∈ triplesUp n ↔ t.1 < t.2.1 ∧ t.2.1 < t.2.2 ∧ t.2.2 < n := by
  obtain ⟨i, j, k⟩ := t
  simp only [triplesUp, List.mem_flatMap, List.mem_filterMap, List.mem_range]
  constructor
  · rintro ⟨a, ha, b, hb, c, hc, h⟩
    split at h
    · next h' => cases h; exact ⟨h'.1, h'.2, hc⟩
    · cases h
  · rintro ⟨h1, h2, h3⟩
    exact ⟨i, Nat.lt_trans h1 (Nat.lt_trans h2 h3), j, Nat.lt_trans h2 h3, k, h3, by rw [if_pos ⟨h1, h2⟩]⟩

/-- **C29.** Whatever the distances computed for the triples: if the scan names a sphere, that sphere is not fixed and not one of
the triple that produced it, its new radius is 0.95 times the distance to that triple's nearer point – smaller than its old radius
if that distance is not negative, and then not negative itself – and no other possible choice would shrink its sphere by less.
Otherwise it returns the out-of-range index, leaves the radius argument as it was, and there was no possible choice. -/
theorem C29_resolve_sliver (n : Nat) (rad : Nat → ℝ) (fixed : Nat → Bool) (hm : Nat × Nat × Nat → Nat → Option ℝ) (r0 : ℝ) :
    ((resolveSliver n rad fixed hm r0).index = n ∧ (resolveSliver n rad fixed hm r0).radius = r0 ∧ ∀ t l h, ¬ SliverChoice n rad fixed hm t l h) ∨
    ((resolveSliver n rad fixed hm r0).index < n ∧ fixed (resolveSliver n rad fixed hm r0).index = false ∧
      ∃ t h, SliverChoice n rad fixed hm t (resolveSliver n rad fixed hm r0).index h ∧ (resolveSliver n rad fixed hm r0).radius = 0.95 * h ∧
        (0 ≤ h → 0 ≤ (resolveSliver n rad fixed hm r0).radius ∧ (resolveSliver n rad fixed hm r0).radius ≤ h ∧
          (resolveSliver n rad fixed hm r0).radius < rad (resolveSliver n rad fixed hm r0).index) ∧
        ∀ t' l' h', SliverChoice n rad fixed hm t' l' h' →
          rad (resolveSliver n rad fixed hm r0).index - (resolveSliver n rad fixed hm r0).radius ≤ rad l' - 0.95 * h') := by
  have h0 : ScanOf n rad fixed hm r0 (fun _ _ => False) { drMin := ⊤, index := n, radius := r0 } := Or.inl ⟨rfl, rfl, rfl, fun _ _ _ h => h.elim⟩
  have := sliverTriples_scan (triplesUp n) (fun t ht => mem_triplesUp.1 ht) h0
  change ScanOf _ _ _ _ _ _ (resolveSliver n rad fixed hm r0) at this
  set s := resolveSliver n rad fixed hm r0
  rcases this with ⟨-, h2, h3, h4⟩ | ⟨t, h, h1, h2, h3, h4⟩
  · exact Or.inl ⟨h2, h3, fun t l h hc => h4 t l h (Or.inr ⟨mem_triplesUp.2 hc.triple, hc.sphere⟩) hc⟩
  · refine Or.inr ⟨h1.sphere, h1.free, t, h, h1, by rw [h2]; ring, fun h0 => ?_, fun t' l' h' hc => ?_⟩
    · have := h1.inside
      rw [h2]
      refine ⟨by positivity, by linarith, ?_⟩
      have : (0 : ℝ) < 1e-10 := by norm_num
      linarith
    · have := h4 t' l' h' (Or.inr ⟨mem_triplesUp.2 hc.triple, hc.sphere⟩) hc
      rw [h2]; linarith

-- four unit spheres of which the last can be shrunk to 0.475, and one call without any choice
example : (resolveSliver 4 (fun _ => 1) (fun l => decide (l < 3)) (fun _ _ => some 0.5) 7).index = 3 ∧
    (resolveSliver 4 (fun _ => 1) (fun l => decide (l < 3)) (fun _ _ => some 0.5) 7).radius = 0.475 := by
  rcases C29_resolve_sliver 4 (fun _ => 1) (fun l => decide (l < 3)) (fun _ _ => some 0.5) 7 with ⟨-, -, h⟩ | ⟨h1, h2, t, h, hc, hr, -⟩
  · exact absurd ⟨by norm_num, by norm_num, by norm_num, by norm_num, rfl, by norm_num⟩ (h (0, 1, 2) 3 0.5)
  · have e : h = 0.5 := (Option.some.inj hc.dist).symm
    rw [e] at hr
    refine ⟨?_, by rw [hr]; norm_num⟩
    have : ¬ (resolveSliver 4 (fun _ => 1) (fun l => decide (l < 3)) (fun _ _ => some 0.5) 7).index < 3 := by simpa using h2
    omega

example : (resolveSliver 4 (fun _ => 1) (fun _ => true) (fun _ _ => some 0.5) 7).index = 4 := by
  rcases C29_resolve_sliver 4 (fun _ => 1) (fun _ => true) (fun _ _ => some 0.5) 7 with ⟨h, -⟩ | ⟨-, h2, -⟩
  · exact h
  · cases h2

/-! ## C30 -/

/-- Power distance of `x` to the sphere with centre `c` and radius `r`. -/
noncomputable def power (n : Nat) (x c : Nat → ℝ) (r : ℝ) : ℝ := euclid n x c ^ 2 - r ^ 2

theorem euclid_sq (n : Nat) (x y : Nat → ℝ) : euclid n x y ^ 2 = ∑ d ∈ Finset.range n, (x d - y d) ^ 2 :=
  Real.sq_sqrt (Finset.sum_nonneg fun _ _ => sq_nonneg _)

/-- Power of a point of the line of centres. -/
theorem power_on_line (n : Nat) (ci cj : Nat → ℝ) (ri rj a : ℝ) :
    power n (fun d => ci d + a * (cj d - ci d)) ci ri - power n (fun d => ci d + a * (cj d - ci d)) cj rj =
      (2 * a - 1) * euclid n ci cj ^ 2 - ri ^ 2 + rj ^ 2 := by
  unfold power
  simp only [euclid_sq]
  have : ∀ f g k : Nat → ℝ, (∀ d, f d - g d = (2 * a - 1) * k d) →
      ∑ d ∈ Finset.range n, f d - ∑ d ∈ Finset.range n, g d = (2 * a - 1) * ∑ d ∈ Finset.range n, k d := by
    intro f g k h
    rw [← Finset.sum_sub_distrib, Finset.mul_sum]
    exact Finset.sum_congr rfl fun d _ => h d
  have := this (fun d => (ci d + a * (cj d - ci d) - ci d) ^ 2) (fun d => (ci d + a * (cj d - ci d) - cj d) ^ 2)
    (fun d => (ci d - cj d) ^ 2) (fun d => by ring)
  linarith

theorem powerVertexAt_spec (n : Nat) (ci cj : Nat → ℝ) (ri rj : ℝ) (hne : 0 < euclid n ci cj) :
    (∃ a : ℝ, ∀ d, powerVertexAt ci ri cj rj (euclid n ci cj) d = ci d + a * (cj d - ci d)) ∧
    power n (powerVertexAt ci ri cj rj (euclid n ci cj)) ci ri = power n (powerVertexAt ci ri cj rj (euclid n ci cj)) cj rj ∧
    ∀ a : ℝ, power n (fun d => ci d + a * (cj d - ci d)) ci ri = power n (fun d => ci d + a * (cj d - ci d)) cj rj →
      ∀ d, powerVertexAt ci ri cj rj (euclid n ci cj) d = ci d + a * (cj d - ci d) := by
  set h := euclid n ci cj with hh
  have e : ∀ d, powerVertexAt ci ri cj rj h d = ci d + ((h * h + ri * ri - rj * rj) / (2 * h ^ 2)) * (cj d - ci d) := by
    intro d
    unfold powerVertexAt
    field_simp
  have ef : powerVertexAt ci ri cj rj h = fun d => ci d + ((h * h + ri * ri - rj * rj) / (2 * h ^ 2)) * (cj d - ci d) := funext e
  refine ⟨⟨_, e⟩, ?_, fun a ha d => ?_⟩
  · have := power_on_line n ci cj ri rj ((h * h + ri * ri - rj * rj) / (2 * h ^ 2))
    rw [← ef, ← hh] at this
    have h2 : (2 * ((h * h + ri * ri - rj * rj) / (2 * h ^ 2)) - 1) * h ^ 2 - ri ^ 2 + rj ^ 2 = 0 := by
      field_simp; ring
    linarith
  · have := power_on_line n ci cj ri rj a
    rw [ha, sub_self, ← hh] at this
    rw [e]
    have : a = (h * h + ri * ri - rj * rj) / (2 * h ^ 2) := by
      field_simp; linarith
    rw [this]

/-- **C30.** For two spheres whose centres are at least 1e-10 apart the routine of the sphere methods returns the one point of
the line of centres with equal power distance to both spheres; for closer centres it returns nothing. -/
theorem C30_power_vertex (n : Nat) (si sj : Nat → ℝ) :
    (euclid n si sj < 1e-10 → powerVertex n si sj = none) ∧
    (1e-10 ≤ euclid n si sj → ∃ pv, powerVertex n si sj = some pv ∧ (∃ a : ℝ, ∀ d, pv d = si d + a * (sj d - si d)) ∧
      power n pv si (si n) = power n pv sj (sj n) ∧
      ∀ a : ℝ, power n (fun d => si d + a * (sj d - si d)) si (si n) = power n (fun d => si d + a * (sj d - si d)) sj (sj n) →
        ∀ d, pv d = si d + a * (sj d - si d)) := by
  unfold powerVertex
  rw [distance_eq]
  constructor
  · intro h; rw [if_pos h]
  · intro h
    rw [if_neg (not_lt.2 h)]
    have h0 : (0 : ℝ) < 1e-10 := by norm_num
    exact ⟨_, rfl, powerVertexAt_spec n si sj _ _ (by linarith)⟩

/-- **C30, geometry routine.** The same for the routine of the geometrical methods, for any two distinct centres. -/
theorem C30_power_vertex_geometry (n : Nat) (ci cj : Nat → ℝ) (ri rj : ℝ) (hne : ∃ d, d < n ∧ ci d ≠ cj d) :
    (∃ a : ℝ, ∀ d, powerVertexAt ci ri cj rj (distance n ci cj) d = ci d + a * (cj d - ci d)) ∧
    power n (powerVertexAt ci ri cj rj (distance n ci cj)) ci ri = power n (powerVertexAt ci ri cj rj (distance n ci cj)) cj rj := by
  rw [distance_eq]
  have : 0 < euclid n ci cj := by
    obtain ⟨d, hd, h⟩ := hne
    refine Real.sqrt_pos.2 (lt_of_lt_of_le (by positivity [sub_ne_zero.2 h] : (0 : ℝ) < (ci d - cj d) ^ 2) ?_)
    exact Finset.single_le_sum (f := fun d => (ci d - cj d) ^ 2) (fun d _ => sq_nonneg _) (Finset.mem_range.2 hd)
  exact ⟨(powerVertexAt_spec n ci cj ri rj this).1, (powerVertexAt_spec n ci cj ri rj this).2.1⟩

-- spheres of radius 2 and 1 at distance 3: the vertex is 2 from the first centre
example : powerVertexAt (mkSphere 0 0 0 2) 2 (mkSphere 3 0 0 1) 1 3 0 = 2 := by
  simp [powerVertexAt, mkSphere]; norm_num

example : ∃ pv, powerVertex 3 (mkSphere 0 0 0 2) (mkSphere 3 0 0 1) = some pv := by
  have e : euclid 3 (mkSphere 0 0 0 2) (mkSphere 3 0 0 1) = 3 := euclid_mk (by norm_num) (by norm_num)
  obtain ⟨pv, h, -⟩ := (C30_power_vertex 3 (mkSphere 0 0 0 2) (mkSphere 3 0 0 1)).2 (by rw [e]; norm_num)
  exact ⟨pv, h⟩

end VoroCrust
