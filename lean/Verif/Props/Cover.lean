import Verif.Model.Spheres
import Verif.Lemmas.Euclid

/-! # Properties C24, C25 and C28: coverage and overlap queries on sphere trees -/

namespace VoroCrust

/-- A sphere tree: a tree of three-dimensional points, built by any history, whose attribute 0 is a
non-negative radius. -/
structure SphereTree (P : PointStore ℝ) (ln : Links) : Prop where
  tree : RealTree P ln
  dim : P.dim = 3
  nonneg : ∀ i, i < P.num → 0 ≤ P.pts i 3

/-- Radii grow at most with rate `L`. -/
def LipschitzRadii (P : PointStore ℝ) (L : ℝ) : Prop :=
  ∀ i j, i < P.num → j < P.num → P.pts i 3 ≤ P.pts j 3 + L * euclid 3 (P.pts i) (P.pts j)

/-- Every non-empty list of spheres with non-negative radii gives a sphere tree holding exactly these spheres: the
hypothesis `SphereTree` of the theorems below is met by every such list. -/
theorem SphereTree.exists (xs : List (Nat → ℝ)) (hne : xs ≠ []) (hr : ∀ x ∈ xs, 0 ≤ x 3) :
    ∃ P ln, SphereTree P ln ∧ P.num = xs.length ∧ ∀ i (hi : i < xs.length), P.pts i = xs[i] := by
  obtain ⟨st, e, hi⟩ := addTreePoints_inv (lt := realLt) (dim := 3) (rb := fun _ _ => false) (by norm_num) realLt_asymm xs
    (SmartTree.empty_inv (fun _ _ => 0) id id)
  refine ⟨{ pts := st.pts, num := st.num, dim := 3, lt := realLt }, st.links,
    ⟨⟨rfl, by norm_num, BuiltTree.inserted realLt (fun _ _ => false) xs _ _ _ st e hne⟩, rfl, ?_⟩, by simpa using hi.num, ?_⟩
  · intro i h
    have h' : i < xs.length := by have := hi.num; simp at this h; omega
    have := hi.pts i (by simpa using h')
    simp only [List.nil_append] at this
    show 0 ≤ st.pts i 3
    rw [this]; exact hr _ (List.getElem_mem _)
  · intro i h
    have := hi.pts i (by simpa using h)
    simpa using this

/-- A sphere as a point record. -/
def mkSphere (a b c r : ℝ) : Nat → ℝ := fun d => if d = 0 then a else if d = 1 then b else if d = 2 then c else r

theorem euclid_mk {a b c r a' b' c' r' w : ℝ} (hw : 0 ≤ w) (h : (a - a') ^ 2 + (b - b') ^ 2 + (c - c') ^ 2 = w ^ 2) :
    euclid 3 (mkSphere a b c r) (mkSphere a' b' c' r') = w := by
  have : ∑ d ∈ Finset.range 3, (mkSphere a b c r d - mkSphere a' b' c' r' d) ^ 2 = w ^ 2 := by
    rw [← h]; simp [mkSphere, Finset.sum_range_succ]
  unfold euclid
  rw [this, Real.sqrt_sq hw]

theorem distance_eq (n : Nat) (x y : Nat → ℝ) : distance n x y = euclid n x y := by
  unfold distance; rw [dstOf_exact, euclid_comm]

theorem SphereTree.radius {P : PointStore ℝ} {ln : Links} (h : SphereTree P ln) (i : Nat) : VoroCrust.radius P i = P.pts i 3 := by
  unfold VoroCrust.radius; rw [h.dim]

theorem RealTree.num_pos {P : PointStore ℝ} {ln : Links} (h : RealTree P ln) : 0 < P.num := by
  obtain ⟨t, hok, hne, hmem⟩ := h.ok
  cases t with
  | nil => exact absurd rfl hne
  | node i l r => exact lt_of_le_of_lt (Nat.zero_le _) ((hmem i).1 (by simp [KT.idx]))

/-- The closest-sphere step: never undefined on a sphere tree. -/
theorem closestSphere_spec {P : PointStore ℝ} {ln : Links} (h : SphereTree P ln) (x : Nat → ℝ) :
    ∃ c, closestSphere P ln x = some (c, euclid 3 x (P.pts c)) ∧ c < P.num := by
  obtain ⟨c, b, e, h1 | h1⟩ := C06_closest_is_exhaustive P ln h.tree (fun _ => true) x false ⊤ le_top
  · obtain ⟨hc, -, hb, -, -⟩ := h1
    rw [h.dim] at hb
    refine ⟨c, ?_, hc⟩
    unfold closestSphere
    rw [e, hb]
    show (if c < P.num then some (c, euclid 3 x (P.pts c)) else none) = _
    rw [if_pos hc]
  · exact absurd (h1.2.2 0 h.tree.num_pos rfl) (by simp)

theorem spheresNear_spec {P : PointStore ℝ} {ln : Links} (h : SphereTree P ln) (x : Nat → ℝ) {R : ℝ} (hR : 0 ≤ R) :
    ∃ l, spheresNear P ln x R = some l ∧ l.Nodup ∧ (∀ q ∈ l, q < P.num) ∧ (∀ q, q < P.num → euclid 3 x (P.pts q) < R → q ∈ l) := by
  obtain ⟨l, e, h1, h2, h3⟩ := C08_in_sphere_sound_complete P ln h.tree (fun _ => true) x R hR
  refine ⟨l, e, h1, fun q hq => (h2 q hq).1, fun q hq hn => h3 q hq rfl ?_⟩
  rw [h.dim]; exact hn

theorem coverBeta_bounds {α : ℝ} (h0 : 0 ≤ α) (h1 : α < 1) :
    Real.sqrt (1 - α ^ 2) ≤ coverBeta α ∧ coverBeta α ≤ Real.sqrt (1 - α ^ 2) + 1e-9 ∧ coverBeta α ≤ 1 ∧ 0 ≤ coverBeta α := by
  have hs : Real.sqrt (1 - α ^ 2) ≤ 1 := by
    exact Real.sqrt_le_iff.2 ⟨zero_le_one, by nlinarith⟩
  unfold coverBeta
  split
  · rw [← pow_two]
    exact ⟨le_rfl, by norm_num, hs, Real.sqrt_nonneg _⟩
  · rename_i h
    refine ⟨hs, ?_, le_rfl, zero_le_one⟩
    have h' : α ≤ 1e-10 := not_lt.1 h
    have hsq : α ^ 2 ≤ 1e-20 := by
      have : α ^ 2 ≤ (1e-10) ^ 2 := pow_le_pow_left₀ h0 h' 2
      linarith [show ((1e-10 : ℝ)) ^ 2 = 1e-20 by norm_num]
    have : (1 - 1e-9 : ℝ) ≤ Real.sqrt (1 - α ^ 2) := by
      apply Real.le_sqrt_of_sq_le
      have : ((1 - 1e-9 : ℝ)) ^ 2 ≤ 1 - 1e-20 := by norm_num
      linarith
    linarith

theorem reach_lip {P : PointStore ℝ} {L : ℝ} (hL0 : 0 ≤ L) (hlip : LipschitzRadii P L) {c s : Nat} (hc : c < P.num)
    (hs : s < P.num) (x : Nat → ℝ) : P.pts s 3 ≤ (P.pts c 3 + L * euclid 3 x (P.pts c)) + L * euclid 3 x (P.pts s) := by
  have h1 := hlip s c hs hc
  have h2 : euclid 3 (P.pts s) (P.pts c) ≤ euclid 3 x (P.pts s) + euclid 3 x (P.pts c) := by
    have := euclid_triangle 3 (P.pts s) x (P.pts c)
    rwa [euclid_comm 3 (P.pts s) x] at this
  nlinarith [mul_le_mul_of_nonneg_left h2 hL0]

/-- **C24.** On every sphere tree the coverage test of a point is defined for every coverage ratio `0 ≤ α < 1` and every
`0 ≤ L < 1`.  If it says "covered", some stored sphere contains the point when its radius is multiplied by
`√(1-α²)` (up to a relative `1.1e-8` and an absolute `1e-8`).  If the radii satisfy the Lipschitz condition and some
stored sphere, shrunk by `√(1-α²)`, contains the point, it says "covered". -/
theorem C24_point_covered (P : PointStore ℝ) (ln : Links) (h : SphereTree P ln) (L α : ℝ) (hL0 : 0 ≤ L) (hL1 : L < 1) (hα0 : 0 ≤ α)
    (hα1 : α < 1) (x : Nat → ℝ) :
    ∃ b, pointCovered P ln L α x = some b ∧
      (b = true → ∃ s, s < P.num ∧ euclid 3 x (P.pts s) < (Real.sqrt (1 - α ^ 2) + 1.1e-8) * P.pts s 3 + 1e-8) ∧
      (LipschitzRadii P L → (∃ s, s < P.num ∧ euclid 3 x (P.pts s) < Real.sqrt (1 - α ^ 2) * P.pts s 3) → b = true) := by
  obtain ⟨c, ec, hc⟩ := closestSphere_spec h x
  have hrc := h.nonneg c hc
  have hdc := euclid_nonneg 3 x (P.pts c)
  have h1L : 0 < 1 - L := by linarith
  obtain ⟨hb1, hb2, hb3, hb4⟩ := coverBeta_bounds hα0 hα1
  obtain ⟨l, el, hnd, hl1, hl2⟩ := spheresNear_spec h x (R := (P.pts c 3 + L * euclid 3 x (P.pts c)) / (1 - L))
    (div_nonneg (add_nonneg hrc (mul_nonneg hL0 hdc)) h1L.le)
  refine ⟨_, by unfold pointCovered; rw [if_neg h.tree.num_pos.ne', ec]; simp only [h.radius]; rw [el], ?_, ?_⟩
  · intro hb
    obtain ⟨s, hs, hs'⟩ := List.any_eq_true.1 hb
    refine ⟨s, hl1 s hs, ?_⟩
    simp only [decide_eq_true_eq, distance_eq, inCover, h.radius] at hs'
    have := h.nonneg s (hl1 s hs)
    nlinarith
  · rintro hlip ⟨s, hs, hsx⟩
    rw [List.any_eq_true]
    have hr := h.nonneg s hs
    have hle : Real.sqrt (1 - α ^ 2) * P.pts s 3 ≤ P.pts s 3 := by nlinarith
    refine ⟨s, hl2 s hs ?_, ?_⟩
    · rw [lt_div_iff₀ h1L]
      have := reach_lip hL0 hlip hc hs x
      nlinarith
    · simp only [decide_eq_true_eq, distance_eq, inCover, h.radius]
      nlinarith

/-- Without spheres nothing is covered. -/
theorem C24_no_spheres (P : PointStore ℝ) (ln : Links) (L α : ℝ) (x A B C : Nat → ℝ) (h : P.num = 0) :
    pointCovered P ln L α x = some false ∧ edgeCovered P ln L α A B = some false ∧ faceCovered P ln L α A B C = some false := by
  simp [pointCovered, edgeCovered, faceCovered, h]

/-- **C24, one sphere.** -/
theorem C24_point_covered_by (x s : Nat → ℝ) (α : ℝ) (hα0 : 0 ≤ α) (hα1 : α < 1) (hs : 0 ≤ s 3) :
    (pointCoveredBy x s α = true → euclid 3 x s < (Real.sqrt (1 - α ^ 2) + 1.1e-8) * s 3 + 1e-8) ∧
      (euclid 3 x s < Real.sqrt (1 - α ^ 2) * s 3 → pointCoveredBy x s α = true) := by
  obtain ⟨hb1, hb2, hb3, hb4⟩ := coverBeta_bounds hα0 hα1
  simp only [pointCoveredBy, inCover, decide_eq_true_eq, distance_eq]
  constructor <;> intro h <;> nlinarith

theorem doubleReach_eq {L : ℝ} (hL1 : L < 1) (r : ℝ) : doubleReach L r = 2 * r / (1 - L) := by
  have : (1 - L) ≠ 0 := by linarith
  unfold doubleReach
  field_simp
  ring

/-- **C25, faces.** If a triangle is reported covered, one stored sphere contains the whole triangle (radius multiplied
by `√(1-α²)`, up to `1e-8` relative and absolute).  If the radii satisfy the Lipschitz condition and one shrunk sphere
contains the three corners, the triangle is reported covered. -/
theorem C25_face_covered (P : PointStore ℝ) (ln : Links) (h : SphereTree P ln) (L α : ℝ) (hL0 : 0 ≤ L) (hL1 : L < 1) (hα0 : 0 ≤ α)
    (hα1 : α < 1) (A B C : Nat → ℝ) :
    ∃ b, faceCovered P ln L α A B C = some b ∧
      (b = true → ∃ s, s < P.num ∧ ∀ u v w : ℝ, 0 ≤ u → 0 ≤ v → 0 ≤ w → u + v + w = 1 →
        euclid 3 (fun d => u * A d + v * B d + w * C d) (P.pts s) < (Real.sqrt (1 - α ^ 2) + 1e-8) * P.pts s 3 + 1e-8) ∧
      (LipschitzRadii P L → (∃ s, s < P.num ∧ ∀ X, (X = A ∨ X = B ∨ X = C) → euclid 3 X (P.pts s) < Real.sqrt (1 - α ^ 2) * P.pts s 3) →
        b = true) := by
  set m : Nat → ℝ := fun d => (A d + B d + C d) / 3 with hm
  obtain ⟨c, ec, hc⟩ := closestSphere_spec h m
  have hrc := h.nonneg c hc
  have hdc := euclid_nonneg 3 m (P.pts c)
  have h1L : 0 < 1 - L := by linarith
  have hest : 0 ≤ P.pts c 3 + L * euclid 3 m (P.pts c) := add_nonneg hrc (mul_nonneg hL0 hdc)
  obtain ⟨l, el, hnd, hl1, hl2⟩ := spheresNear_spec h m (R := doubleReach L (P.pts c 3 + L * euclid 3 m (P.pts c)))
    (by rw [doubleReach_eq hL1]; exact div_nonneg (by linarith) h1L.le)
  have hβ : Real.sqrt (1 - α * α) = Real.sqrt (1 - α ^ 2) := by rw [pow_two]
  have hβ1 : Real.sqrt (1 - α ^ 2) ≤ 1 := by exact Real.sqrt_le_iff.2 ⟨zero_le_one, by nlinarith⟩
  have hβ0 := Real.sqrt_nonneg (1 - α ^ 2)
  refine ⟨_, by unfold faceCovered; rw [if_neg h.tree.num_pos.ne', ← hm, ec]; simp only [h.radius]; rw [el], ?_, ?_⟩
  · intro hb
    obtain ⟨s, hs, hs'⟩ := List.any_eq_true.1 hb
    simp only [Bool.and_eq_true, decide_eq_true_eq, distance_eq, inCover, hβ, h.radius] at hs'
    exact ⟨s, hl1 s hs, fun u v w hu hv hw h1 => euclid_convex3 3 A B C _ hu hv hw h1 hs'.1.1 hs'.1.2 hs'.2⟩
  · rintro hlip ⟨s, hs, hsx⟩
    rw [List.any_eq_true]
    have hr := h.nonneg s hs
    have hA := hsx A (by simp)
    have hB := hsx B (by simp)
    have hC := hsx C (by simp)
    have hle : Real.sqrt (1 - α ^ 2) * P.pts s 3 ≤ P.pts s 3 := by nlinarith
    have hms : euclid 3 m (P.pts s) < Real.sqrt (1 - α ^ 2) * P.pts s 3 := by
      have := euclid_convex3 3 A B C (P.pts s) (a := 1 / 3) (b := 1 / 3) (g := 1 / 3) (by norm_num) (by norm_num) (by norm_num) (by norm_num) hA hB hC
      refine lt_of_eq_of_lt (euclid_congr (fun d _ => ?_) (fun _ _ => rfl)) this
      rw [hm]; ring
    refine ⟨s, hl2 s hs ?_, ?_⟩
    · rw [doubleReach_eq hL1, lt_div_iff₀ h1L]
      have := reach_lip hL0 hlip hc hs m
      nlinarith
    · simp only [Bool.and_eq_true, decide_eq_true_eq, distance_eq, inCover, hβ, h.radius]
      refine ⟨⟨?_, ?_⟩, ?_⟩ <;> nlinarith

/-- **C25, edges.** -/
theorem C25_edge_covered (P : PointStore ℝ) (ln : Links) (h : SphereTree P ln) (L α : ℝ) (hL0 : 0 ≤ L) (hL1 : L < 1) (hα0 : 0 ≤ α)
    (hα1 : α < 1) (A B : Nat → ℝ) :
    ∃ b, edgeCovered P ln L α A B = some b ∧
      (b = true → ∃ s, s < P.num ∧ ∀ u v : ℝ, 0 ≤ u → 0 ≤ v → u + v = 1 →
        euclid 3 (fun d => u * A d + v * B d) (P.pts s) < (Real.sqrt (1 - α ^ 2) + 1e-8) * P.pts s 3 + 1e-8) ∧
      (LipschitzRadii P L → (∃ s, s < P.num ∧ ∀ X, (X = A ∨ X = B) → euclid 3 X (P.pts s) < Real.sqrt (1 - α ^ 2) * P.pts s 3) →
        b = true) := by
  set m : Nat → ℝ := fun d => 0.5 * (A d + B d) with hm
  obtain ⟨c, ec, hc⟩ := closestSphere_spec h m
  have hrc := h.nonneg c hc
  have hdc := euclid_nonneg 3 m (P.pts c)
  have h1L : 0 < 1 - L := by linarith
  have hest : 0 ≤ P.pts c 3 + L * euclid 3 m (P.pts c) := add_nonneg hrc (mul_nonneg hL0 hdc)
  obtain ⟨l, el, hnd, hl1, hl2⟩ := spheresNear_spec h m (R := doubleReach L (P.pts c 3 + L * euclid 3 m (P.pts c)))
    (by rw [doubleReach_eq hL1]; exact div_nonneg (by linarith) h1L.le)
  have hβ : Real.sqrt (1 - α * α) = Real.sqrt (1 - α ^ 2) := by rw [pow_two]
  have hβ1 : Real.sqrt (1 - α ^ 2) ≤ 1 := by exact Real.sqrt_le_iff.2 ⟨zero_le_one, by nlinarith⟩
  have hβ0 := Real.sqrt_nonneg (1 - α ^ 2)
  refine ⟨_, by unfold edgeCovered; rw [if_neg h.tree.num_pos.ne', ← hm, ec]; simp only [h.radius]; rw [el], ?_, ?_⟩
  · intro hb
    obtain ⟨s, hs, hs'⟩ := List.any_eq_true.1 hb
    simp only [Bool.and_eq_true, decide_eq_true_eq, distance_eq, inCover, hβ, h.radius] at hs'
    exact ⟨s, hl1 s hs, fun u v hu hv h1 => euclid_convex2 3 A B _ hu hv h1 hs'.1 hs'.2⟩
  · rintro hlip ⟨s, hs, hsx⟩
    rw [List.any_eq_true]
    have hr := h.nonneg s hs
    have hA := hsx A (by simp)
    have hB := hsx B (by simp)
    have hle : Real.sqrt (1 - α ^ 2) * P.pts s 3 ≤ P.pts s 3 := by nlinarith
    have hms : euclid 3 m (P.pts s) < Real.sqrt (1 - α ^ 2) * P.pts s 3 := by
      have := euclid_convex2 3 A B (P.pts s) (a := 1 / 2) (b := 1 / 2) (by norm_num) (by norm_num) (by norm_num) hA hB
      refine lt_of_eq_of_lt (euclid_congr (fun d _ => ?_) (fun _ _ => rfl)) this
      rw [hm]; ring
    refine ⟨s, hl2 s hs ?_, ?_⟩
    · rw [doubleReach_eq hL1, lt_div_iff₀ h1L]
      have := reach_lip hL0 hlip hc hs m
      nlinarith
    · simp only [Bool.and_eq_true, decide_eq_true_eq, distance_eq, inCover, hβ, h.radius]
      refine ⟨?_, ?_⟩ <;> nlinarith

/-! ## C28 -/

open Classical in
theorem countOverlaps_eq (P : PointStore ℝ) (x : Nat → ℝ) (rx : ℝ) (l : List Nat) (n : Nat) :
    countOverlaps P x rx l n = n + (l.filter fun s => decide (overlaps x rx (P.pts s) (radius P s))).length := by
  induction l generalizing n with
  | nil => simp [countOverlaps]
  | cons s l ih =>
    simp only [countOverlaps, ih, List.filter_cons]
    by_cases h : overlaps x rx (P.pts s) (radius P s)
    · simp [h]; omega
    · simp [h]

open Classical in
theorem fillOverlaps_eq (P : PointStore ℝ) (x : Nat → ℝ) (rx : ℝ) (cap : Nat) (l acc : List Nat)
    (h : acc.length + (l.filter fun s => decide (overlaps x rx (P.pts s) (radius P s))).length ≤ cap) :
    fillOverlaps P x rx cap l acc = some (acc ++ l.filter fun s => decide (overlaps x rx (P.pts s) (radius P s))) := by
  induction l generalizing acc with
  | nil => simp [fillOverlaps]
  | cons s l ih =>
    simp only [fillOverlaps]
    by_cases ho : overlaps x rx (P.pts s) (radius P s)
    · have hf : (s :: l).filter (fun s => decide (overlaps x rx (P.pts s) (radius P s))) =
          s :: l.filter (fun s => decide (overlaps x rx (P.pts s) (radius P s))) := by
        rw [List.filter_cons, if_pos (by simpa using ho)]
      rw [hf] at h ⊢
      simp only [List.length_cons] at h
      rw [if_pos ho, if_pos (by omega), ih _ (by simp; omega)]
      simp
    · have hf : (s :: l).filter (fun s => decide (overlaps x rx (P.pts s) (radius P s))) =
          l.filter (fun s => decide (overlaps x rx (P.pts s) (radius P s))) := by
        rw [List.filter_cons, if_neg (by simpa using ho)]
      rw [hf] at h ⊢
      rw [if_neg ho, ih _ h]

/-- **C28.** On every sphere tree the overlap query is defined (the fill pass never exceeds the counted size), lists no
sphere twice and only spheres whose distance is below the sum of the radii plus `1e-10`; under the Lipschitz condition it
lists every sphere whose distance is below the sum of the radii. -/
theorem C28_overlapping_spheres (P : PointStore ℝ) (ln : Links) (h : SphereTree P ln) (L : ℝ) (hL0 : 0 ≤ L) (hL1 : L < 1)
    (x : Nat → ℝ) (rx : ℝ) (hrx : 0 ≤ rx) :
    ∃ l, overlappingSpheres P ln L x rx = some l ∧ l.Nodup ∧
      (∀ s ∈ l, s < P.num ∧ euclid 3 x (P.pts s) < rx + P.pts s 3 + 1e-10) ∧
      (LipschitzRadii P L → ∀ s, s < P.num → euclid 3 x (P.pts s) < rx + P.pts s 3 → s ∈ l) := by
  obtain ⟨c, ec, hc⟩ := closestSphere_spec h x
  have hrc := h.nonneg c hc
  have hdc := euclid_nonneg 3 x (P.pts c)
  have h1L : 0 < 1 - L := by linarith
  have hest : 0 ≤ P.pts c 3 + L * euclid 3 x (P.pts c) := add_nonneg hrc (mul_nonneg hL0 hdc)
  obtain ⟨r, hr, hr1, hr2⟩ : ∃ r, (if P.pts c 3 + L * euclid 3 x (P.pts c) < rx then rx else P.pts c 3 + L * euclid 3 x (P.pts c)) = r ∧
      rx ≤ r ∧ P.pts c 3 + L * euclid 3 x (P.pts c) ≤ r := by
    refine ⟨_, rfl, ?_, ?_⟩ <;> split <;> linarith
  obtain ⟨l, el, hnd, hl1, hl2⟩ := spheresNear_spec h x (R := doubleReach L r)
    (by rw [doubleReach_eq hL1]; exact div_nonneg (by linarith) h1L.le)
  refine ⟨_, by
    unfold overlappingSpheres
    rw [if_neg h.tree.num_pos.ne', ec]
    simp only [h.radius]
    rw [hr, el]
    simp only
    rw [fillOverlaps_eq _ _ _ _ _ _ (by rw [countOverlaps_eq]; simp)], ?_, ?_, ?_⟩
  · simpa using hnd.filter _
  · intro s hs
    simp only [List.nil_append, List.mem_filter, decide_eq_true_eq, overlaps, distance_eq, h.radius] at hs
    exact ⟨hl1 s hs.1, hs.2⟩
  · intro hlip s hs hsx
    simp only [List.nil_append, List.mem_filter, decide_eq_true_eq, overlaps, distance_eq, h.radius]
    refine ⟨hl2 s hs ?_, by linarith⟩
    rw [doubleReach_eq hL1, lt_div_iff₀ h1L]
    have := reach_lip hL0 hlip hc hs x
    nlinarith

/-! ## The hypotheses can be met -/

/-- Two unit spheres, two apart: a sphere tree with Lipschitz radii. -/
theorem twoSpheres : ∃ P ln, SphereTree P ln ∧ LipschitzRadii P 0.1 ∧ P.num = 2 ∧ P.pts 0 = mkSphere 0 0 0 1 ∧ P.pts 1 = mkSphere 2 0 0 1 := by
  obtain ⟨P, ln, h, hn, hp⟩ := SphereTree.exists [mkSphere 0 0 0 1, mkSphere 2 0 0 1] (by simp) (by simp [mkSphere])
  have h0 : P.pts 0 = mkSphere 0 0 0 1 := hp 0 (by simp)
  have h1 : P.pts 1 = mkSphere 2 0 0 1 := hp 1 (by simp)
  refine ⟨P, ln, h, ?_, hn, h0, h1⟩
  intro i j hi hj
  have hr : ∀ i, i < P.num → P.pts i 3 = 1 := by
    intro i hi
    rw [hn] at hi
    have : i = 0 ∨ i = 1 := by simp at hi; omega
    rcases this with rfl | rfl
    · rw [h0]; simp [mkSphere]
    · rw [h1]; simp [mkSphere]
  rw [hr i hi, hr j hj]
  have := euclid_nonneg 3 (P.pts i) (P.pts j)
  linarith

-- C24 gives a verdict "covered" and a verdict "not covered" on it
example : ∃ P ln, pointCovered P ln 0.1 0 (mkSphere 1.5 0 0 0) = some true ∧ pointCovered P ln 0.1 0 (mkSphere 1 1 0 0) = some false := by
  obtain ⟨P, ln, h, hl, hn, h0, h1⟩ := twoSpheres
  refine ⟨P, ln, ?_, ?_⟩
  · obtain ⟨b, e, -, hb⟩ := C24_point_covered P ln h 0.1 0 (by norm_num) (by norm_num) le_rfl (by norm_num) (mkSphere 1.5 0 0 0)
    rw [e, hb hl ⟨1, by omega, ?_⟩]
    rw [h1, euclid_mk (w := 0.5) (by norm_num) (by norm_num)]
    simp [mkSphere]
    norm_num
  · obtain ⟨b, e, hb, -⟩ := C24_point_covered P ln h 0.1 0 (by norm_num) (by norm_num) le_rfl (by norm_num) (mkSphere 1 1 0 0)
    rw [e]
    cases b with
    | false => rfl
    | true =>
      obtain ⟨s, hs, hc⟩ := hb rfl
      exfalso
      have hd : euclid 3 (mkSphere 1 1 0 0) (P.pts s) = Real.sqrt 2 ∧ P.pts s 3 = 1 := by
        have : s = 0 ∨ s = 1 := by omega
        rcases this with rfl | rfl
        · rw [h0]; constructor
          · unfold euclid; congr 1; simp [mkSphere, Finset.sum_range_succ]; norm_num
          · simp [mkSphere]
        · rw [h1]; constructor
          · unfold euclid; congr 1; simp [mkSphere, Finset.sum_range_succ]; norm_num
          · simp [mkSphere]
      rw [hd.1, hd.2] at hc
      have h14 : (1.4 : ℝ) < Real.sqrt 2 := Real.lt_sqrt_of_sq_lt (by norm_num)
      have h1 : Real.sqrt (1 - (0 : ℝ) ^ 2) = 1 := by simp
      rw [h1] at hc
      norm_num at hc
      linarith

-- C25 and C28 likewise
example : ∃ P ln, faceCovered P ln 0.1 0 (mkSphere 0 0 0 0) (mkSphere 0.5 0 0 0) (mkSphere 0 0.5 0 0) = some true ∧
    edgeCovered P ln 0.1 0 (mkSphere 0 0 0 0) (mkSphere 0.5 0 0 0) = some true ∧
    ∃ l, overlappingSpheres P ln 0.1 (mkSphere 1 0 0 0.5) 0.5 = some l ∧ 0 ∈ l ∧ 1 ∈ l := by
  obtain ⟨P, ln, h, hl, hn, h0, h1⟩ := twoSpheres
  have q : Real.sqrt (1 - (0 : ℝ) ^ 2) = 1 := by simp
  have d1 : euclid 3 (mkSphere 0 0 0 0) (mkSphere 0 0 0 1) = 0 := by simp [euclid, mkSphere, Finset.sum_range_succ]
  have d2 : euclid 3 (mkSphere 0.5 0 0 0) (mkSphere 0 0 0 1) = 0.5 := by
    exact euclid_mk (by norm_num) (by norm_num)
  have d3 : euclid 3 (mkSphere 0 0.5 0 0) (mkSphere 0 0 0 1) = 0.5 := by
    exact euclid_mk (by norm_num) (by norm_num)
  have r0 : (mkSphere 0 0 0 1) 3 = 1 := by simp [mkSphere]
  refine ⟨P, ln, ?_, ?_, ?_⟩
  · obtain ⟨b, e, -, hb⟩ := C25_face_covered P ln h 0.1 0 (by norm_num) (by norm_num) le_rfl (by norm_num) (mkSphere 0 0 0 0)
      (mkSphere 0.5 0 0 0) (mkSphere 0 0.5 0 0)
    rw [e, hb hl ⟨0, by omega, ?_⟩]
    rintro X (rfl | rfl | rfl) <;> rw [h0, q, r0]
    · rw [d1]; norm_num
    · rw [d2]; norm_num
    · rw [d3]; norm_num
  · obtain ⟨b, e, -, hb⟩ := C25_edge_covered P ln h 0.1 0 (by norm_num) (by norm_num) le_rfl (by norm_num) (mkSphere 0 0 0 0)
      (mkSphere 0.5 0 0 0)
    rw [e, hb hl ⟨0, by omega, ?_⟩]
    rintro X (rfl | rfl) <;> rw [h0, q, r0]
    · rw [d1]; norm_num
    · rw [d2]; norm_num
  · obtain ⟨l, e, -, -, hb⟩ := C28_overlapping_spheres P ln h 0.1 (by norm_num) (by norm_num) (mkSphere 1 0 0 0.5) 0.5 (by norm_num)
    refine ⟨l, e, hb hl 0 (by omega) ?_, hb hl 1 (by omega) ?_⟩
    · rw [h0, euclid_mk (w := 1) (by norm_num) (by norm_num)]; simp [mkSphere]; norm_num
    · rw [h1, euclid_mk (w := 1) (by norm_num) (by norm_num)]; simp [mkSphere]; norm_num

end VoroCrust
