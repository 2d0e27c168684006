import Verif.Props.FanCases
import Verif.Props.SheetRegions

/-! # C85: a double pyramid with one edge sphere -/

namespace VoroCrust

/-- Two tetrahedra with a common face: spheres 0 and 1 are surface spheres, 2 is an edge sphere between the corner spheres 3 and 6. -/
def bipFaces : List (Nat × Nat × Nat) := [(0, 2, 3), (0, 2, 6), (1, 2, 3), (1, 2, 6), (0, 1, 3), (0, 1, 6)]

theorem bip_paired : PairedSeeds (axisFans bipFaces) := by
  refine axis_paired bipFaces (by decide +kernel) ?_
  intro a ha
  simp only [bipFaces, twoSeeds, List.mem_cons, List.not_mem_nil, or_false] at ha
  rcases ha with rfl | rfl | rfl | rfl | rfl | rfl | rfl | rfl | rfl | rfl | rfl | rfl <;>
    (unfold areaVec cross3; constructor
     · first
        | (refine ⟨0, ?_⟩; simp [axisPoint]; done)
        | (refine ⟨1, ?_⟩; simp [axisPoint]; done)
        | (refine ⟨2, ?_⟩; simp [axisPoint])
     · simp [axisPoint] <;> norm_num)

theorem bip_lt : ∀ a ∈ (axisFans bipFaces).attr, a.s1 < 7 ∧ a.s2 < 7 ∧ a.s3 < 7 := by
  show ∀ a ∈ twoSeeds bipFaces 0, a.s1 < 7 ∧ a.s2 < 7 ∧ a.s3 < 7
  decide +kernel

theorem bip_two : ∀ i, i < 7 → ∀ w, TwoTriangles (axisFans bipFaces) i w := by
  refine twoTriangles_check bip_lt ?_
  show ∀ i w u : Fin 7, linkCheck (twoSeeds bipFaces 0) i u w = true → ∃ v : Fin 7, v ≠ u ∧ linkCheck (twoSeeds bipFaces 0) i w v = true ∧
    ∀ x : Fin 7, linkCheck (twoSeeds bipFaces 0) i w x = true → x = u ∨ x = v
  decide +kernel

theorem bip_fan : ∀ i, i < 2 → OneFan (axisFans bipFaces) i := by
  have hc : ∀ (i : Fin 2) (u x v y : Fin 7), linkCheck (twoSeeds bipFaces 0) i u x = true → linkCheck (twoSeeds bipFaces 0) i v y = true →
      u = v ∨ ∃ z : Fin 7, linkCheck (twoSeeds bipFaces 0) i u z = true ∧ (z = v ∨ linkCheck (twoSeeds bipFaces 0) i z v = true) := by decide +kernel
  rintro i hi u v ⟨x, hx⟩ ⟨y, hy⟩
  obtain ⟨h1, h2⟩ := linked_lt bip_lt hx
  obtain ⟨h3, h4⟩ := linked_lt bip_lt hy
  rcases hc ⟨i, hi⟩ ⟨u, h1⟩ ⟨x, h2⟩ ⟨v, h3⟩ ⟨y, h4⟩ ((linked_iff _ _ _ _).1 hx) ((linked_iff _ _ _ _).1 hy) with h | ⟨z, hz, h | h⟩
  · cases h; exact Relation.ReflTransGen.refl
  · cases h; exact Relation.ReflTransGen.single ((linked_iff _ _ _ _).2 hz)
  · exact (Relation.ReflTransGen.single ((linked_iff (axisFans bipFaces) i u z).2 hz)).tail ((linked_iff _ _ _ _).2 h)

/-- The triangles around the edge sphere. -/
theorem bip_linked (u v : Nat) : FanLinked (axisFans bipFaces) 2 u v ↔ (u < 2 ∧ (v = 3 ∨ v = 6)) ∨ (v < 2 ∧ (u = 3 ∨ u = 6)) := by
  have hc : ∀ u v : Fin 7, linkCheck (twoSeeds bipFaces 0) 2 u v = true ↔ (u.val < 2 ∧ (v.val = 3 ∨ v.val = 6)) ∨ (v.val < 2 ∧ (u.val = 3 ∨ u.val = 6)) := by decide +kernel
  constructor
  · intro h
    obtain ⟨h1, h2⟩ := linked_lt bip_lt h
    exact (hc ⟨u, h1⟩ ⟨v, h2⟩).1 ((linked_iff _ _ _ _).1 h)
  · intro h
    exact (linked_iff _ _ _ _).2 ((hc ⟨u, by omega⟩ ⟨v, by omega⟩).2 h)

theorem bip_sheaf (nb : Nat) (h : nb = 3 ∨ nb = 6) : Sheaf (axisFans bipFaces) 2 2 nb := by
  have hat : ∀ n j u w, SheetAt (axisFans bipFaces) 2 2 nb j n u w → (u = nb ∧ w < 2) ∨ (2 ≤ w ∧ w ≠ nb) := by
    intro n
    induction n with
    | zero =>
      rintro j u w ⟨rfl, rfl, h1⟩
      rw [bip_linked] at h1
      omega
    | succ n ih =>
      rintro j u w ⟨x, h1, h2, h3, h4⟩
      have := ih j x u h1
      rw [bip_linked] at h4
      omega
  refine ⟨by omega, fun w _ => bip_two 2 (by omega) w, fun j hj => ?_, ?_, fun u w hl => ?_⟩
  · rw [bip_linked] at hj; omega
  · rintro j u ⟨n, hn⟩
    have := hat n j u nb hn
    omega
  · have hon : ∀ x y, x < 2 → (y = 3 ∨ y = 6) → ∃ j, OnSheet (axisFans bipFaces) 2 2 nb j x y ∨ OnSheet (axisFans bipFaces) 2 2 nb j y x := by
      intro x y hx hy
      have h0 : SheetAt (axisFans bipFaces) 2 2 nb x 0 nb x := ⟨rfl, rfl, (bip_linked _ _).2 (by omega)⟩
      by_cases hyn : y = nb
      · subst hyn; exact ⟨x, Or.inr ⟨0, h0⟩⟩
      · exact ⟨x, Or.inl ⟨1, nb, h0, hx, hyn, (bip_linked _ _).2 (by omega)⟩⟩
    rcases (bip_linked u w).1 hl with ⟨h1, h2⟩ | ⟨h1, h2⟩
    · exact hon u w h1 h2
    · obtain ⟨j, h3⟩ := hon w u h1 h2
      exact ⟨j, h3.symm⟩

theorem len3_le_two {v : V3} (h1 : 1 ≤ dot3 v v) (h2 : dot3 v v ≤ 3) : 0 < len3 v ∧ len3 v ≤ 2 := by
  unfold len3
  refine ⟨Real.sqrt_pos.2 (by linarith), ?_⟩
  rw [show (2 : ℝ) = Real.sqrt 4 by rw [show (4 : ℝ) = 2 ^ 2 by norm_num]; exact (Real.sqrt_sq (by norm_num)).symm]
  exact Real.sqrt_le_sqrt (by linarith)

/-- The coordinates of the sheets: both lie in the right half plane, and only the first one on the axis. -/
theorem bip_coords (nb j0 j : Nat) (h : nb = 3 ∨ nb = 6) (h0 : j0 < 2) (hj : j < 2) :
    1 / 4 ≤ sheetX (axisFans bipFaces) 2 nb j0 j ∧ (j = j0 → sheetY (axisFans bipFaces) 2 nb j0 j = 0) ∧ (j ≠ j0 → 1 / 2 ≤ |sheetY (axisFans bipFaces) 2 nb j0 j|) := by
  have hsp : (axisFans bipFaces).sphere = axisPoint := rfl
  unfold sheetX sheetY
  rw [hsp]
  have ha : 1 ≤ dot3 (fun d => axisPoint nb d - axisPoint 2 d) (fun d => axisPoint nb d - axisPoint 2 d) ∧ dot3 (fun d => axisPoint nb d - axisPoint 2 d) (fun d => axisPoint nb d - axisPoint 2 d) ≤ 3 := by
    rcases h with rfl | rfl <;> simp [dot3, axisPoint] <;> norm_num
  have hb : 1 ≤ dot3 (areaVec ![axisPoint 2, axisPoint nb, axisPoint j0]) (areaVec ![axisPoint 2, axisPoint nb, axisPoint j0]) ∧
      dot3 (areaVec ![axisPoint 2, axisPoint nb, axisPoint j0]) (areaVec ![axisPoint 2, axisPoint nb, axisPoint j0]) ≤ 3 := by
    rcases h with rfl | rfl <;> interval_cases j0 <;> simp [dot3, areaVec, cross3, axisPoint] <;> norm_num
  have hx : 1 ≤ dot3 (areaVec ![axisPoint 2, axisPoint nb, axisPoint j0]) (areaVec ![axisPoint 2, axisPoint nb, axisPoint j]) := by
    rcases h with rfl | rfl <;> interval_cases j0 <;> interval_cases j <;> simp [dot3, areaVec, cross3, axisPoint] <;> norm_num
  have hy0 : j = j0 → dot3 (fun d => axisPoint nb d - axisPoint 2 d) (cross3 (fun d => axisPoint j0 d - axisPoint 2 d) (fun d => axisPoint j d - axisPoint 2 d)) = 0 := by
    rintro rfl
    unfold dot3 cross3
    simp
    ring
  have hy : j ≠ j0 → 1 ≤ |dot3 (fun d => axisPoint nb d - axisPoint 2 d) (cross3 (fun d => axisPoint j0 d - axisPoint 2 d) (fun d => axisPoint j d - axisPoint 2 d))| := by
    rcases h with rfl | rfl <;> interval_cases j0 <;> interval_cases j <;> simp [dot3, cross3, axisPoint]
  obtain ⟨a1, a2⟩ := len3_le_two ha.1 ha.2
  obtain ⟨b1, b2⟩ := len3_le_two hb.1 hb.2
  refine ⟨?_, fun e => by rw [hy0 e, zero_div], fun e => ?_⟩
  · rw [le_div_iff₀ (mul_pos a1 b1)]
    nlinarith [mul_le_mul a2 b2 b1.le (by norm_num)]
  · rw [abs_div, abs_of_pos b1, le_div_iff₀ b1]
    linarith [hy e]

theorem bip_edge : EdgeOk (axisFans bipFaces) 2 2 := by
  have hin : ∀ {nb v}, 2 ≤ nb → FanLinked (axisFans bipFaces) 2 nb v → (nb = 3 ∨ nb = 6) ∧ v < 2 := fun {nb v} h1 h2 => by
    rw [bip_linked] at h2; omega
  refine ⟨⟨3, 0, by omega, (bip_linked _ _).2 (by omega)⟩, fun nb v h1 h2 => bip_sheaf nb (hin h1 h2).1, fun nb j0 j h1 h2 h3 => ?_, fun nb j0 j k θ h1 h2 h3 h4 h5 h6 => ?_⟩
  · obtain ⟨x, y, z⟩ := bip_coords nb j0 j (hin h1 h2).1 (hin h1 h2).2 (hin h1 h3).2
    refine ⟨Or.inl (by linarith), ?_, Or.inl (by rw [abs_of_nonneg (by linarith)]; linarith)⟩
    by_cases e : j = j0
    · rw [y e]; exact Or.inl le_rfl
    · rcases le_abs.1 (z e) with w | w
      · exact Or.inl (by linarith)
      · exact Or.inr (by linarith)
  · obtain ⟨x, y, z⟩ := bip_coords nb j0 j (hin h1 h2).1 (hin h1 h2).2 (hin h1 h3).2
    obtain ⟨x', y', z'⟩ := bip_coords nb j0 k (hin h1 h2).1 (hin h1 h2).2 (hin h1 h4).2
    obtain ⟨-, -, r, hr, e1, e2⟩ := h5
    obtain ⟨-, -, r', hr', e1', e2'⟩ := h6
    have hcross : sheetX (axisFans bipFaces) 2 nb j0 j * sheetY (axisFans bipFaces) 2 nb j0 k = sheetX (axisFans bipFaces) 2 nb j0 k * sheetY (axisFans bipFaces) 2 nb j0 j := by
      rw [e1, e2, e1', e2']; ring
    by_contra hjk
    have hb := (hin h1 h2).2
    have hc := (hin h1 h3).2
    have hd := (hin h1 h4).2
    by_cases e : j = j0
    · rw [y e, mul_zero] at hcross
      have := z' (fun e' => hjk (e.trans e'.symm))
      rcases mul_eq_zero.1 hcross with w | w
      · linarith
      · rw [w, abs_zero] at this; linarith
    · rw [y' (by omega), mul_zero] at hcross
      have := z e
      rcases mul_eq_zero.1 hcross.symm with w | w
      · linarith
      · rw [w, abs_zero] at this; linarith

/-- The double pyramid meets the hypotheses of `C85_regions_partial`, for every exterior seed. -/
example (k k' : Nat) (e : Nat) (he : e < 12) :
    ∃ G c g reg nr, linkSpheres 7 7 (axisFans bipFaces).attr 0 { rows := none, cap := k } = some G ∧
      colourSpheres (axisFans bipFaces) 2 12 G 3 (fun _ => 0) { rows := none, cap := k' } = some (c, g) ∧ colourSeeds g 12 e = some (reg, nr) ∧ reg e = 0 := by
  obtain ⟨nb, j0, α, G, c, g, reg, nr, -, h1, h2, -, h3, h4, -⟩ := C85_regions_partial (axisFans bipFaces) 2 1 7 7 12 k k' bip_paired (by omega) (by omega) (by simp [axisFans, bipFaces, twoSeeds])
    bip_lt ⟨⟨1, 0, 2, 3⟩, by simp [axisFans, bipFaces, twoSeeds], by norm_num⟩ (fun i hi => bip_two i (by omega)) bip_fan
    (fun i h1 h2 _ => by obtain rfl : i = 2 := by omega
                         exact bip_edge) e (by simpa [axisFans, bipFaces, twoSeeds] using he)
  exact ⟨G, c, g, reg, nr, h1, h2, h3, h4⟩

end VoroCrust
