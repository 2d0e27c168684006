import Verif.Model.MeshGen
import Verif.Props.RepairMesh

/-!
# Properties of the generation of a surface mesh in `MeshingPolyMesh` (C128)
-/

namespace VoroCrust

theorem checkAndSave_empty (ns ne nc : Nat) (dist : Nat → Nat → ℝ) (g : MeshGen) : checkAndSave ns ne nc dist [] g = some { g with file := [] } := by
  have ht : TriMesh (ns + ne + nc) [] := by unfold TriMesh; simp
  obtain ⟨pf, hb, _⟩ := C19_point_faces_transpose (ns + ne + nc) [] ht
  unfold checkAndSave repairMesh
  rw [hb]
  simp [repairFaces]

/-- **C128 (a).** Where the first pass finds no slivers: the mesh in the file is the one of the pass; no radius grows, and the spheres at the ends of the open edges of the mesh no longer overlap. -/
theorem C128_mesh_partial (ns ne nc : Nat) (dist : Nat → Nat → ℝ) (hd : ∀ a b : Nat, dist a b = dist b a) (pass : ℝ → (Nat → ℝ) → Option (List (Nat × ℝ) × List (List Nat))) (fuel : Nat) (L : ℝ) (g : MeshGen) (faces : List (List Nat))
    (hp : pass L g.radius = some ([], faces)) (ht : TriMesh (ns + ne + nc) faces) (hs : SimpleFaces faces) :
    ∃ g', generateMesh ns ne nc dist pass (fuel + 1) L g = some g' ∧ g'.file = faces ∧ (∀ q : Nat, g'.radius q ≤ g.radius q) ∧
      (∀ a b : Nat, OpenEdge faces a b → 0 < dist a b → g'.radius a + g'.radius b < dist a b) ∧
      ((¬ ∃ a b : Nat, OpenEdge faces a b) → g'.radius = g.radius) := by
  obtain ⟨b, s, e, hle, _, _, hov, _, htight, hsame, _⟩ := C125_repair_partial ns ne nc faces ht hs dist hd g.radius g.surfaceShrunk g.edgeShrunk g.cornerShrunk
  refine ⟨{ radius := s.radius, surfaceShrunk := s.surfaceShrunk, edgeShrunk := s.edgeShrunk, cornerShrunk := s.cornerShrunk, file := faces }, ?_, rfl, hle, hov, fun h => hsame (htight.2 h)⟩
  unfold generateMesh
  rw [hp]
  simp only [shrinkAll, List.length_nil, gt_iff_lt, lt_irrefl, if_false]
  unfold checkAndSave
  rw [e]

/-- **C128 (b).** Shrinking the slivers: for distinct spheres of the three kinds, each gets its new radius, all others keep theirs, and the three flags tell exactly of which kinds there was a sphere. -/
theorem C128_slivers (ns ne nc : Nat) : ∀ (l : List (Nat × ℝ)) (g : MeshGen), (l.map Prod.fst).Nodup → (∀ e ∈ l, e.1 < ns + ne + nc) →
    ∃ g', shrinkAll ns ne nc l g = some g' ∧ g'.file = g.file ∧ (∀ e ∈ l, g'.radius e.1 = e.2) ∧ (∀ q : Nat, (∀ e ∈ l, e.1 ≠ q) → g'.radius q = g.radius q) ∧
      (g'.surfaceShrunk = true ↔ g.surfaceShrunk = true ∨ ∃ e ∈ l, e.1 < ns) ∧
      (g'.edgeShrunk = true ↔ g.edgeShrunk = true ∨ ∃ e ∈ l, ns ≤ e.1 ∧ e.1 < ns + ne) ∧
      (g'.cornerShrunk = true ↔ g.cornerShrunk = true ∨ ∃ e ∈ l, ns + ne ≤ e.1) := by
  intro l
  induction l with
  | nil =>
    intro g _ _
    exact ⟨g, rfl, rfl, by simp, fun _ _ => rfl, by simp, by simp, by simp⟩
  | cons e l ih =>
    obtain ⟨i, r⟩ := e
    intro g hnd hlt
    obtain ⟨hi, hnd'⟩ := List.nodup_cons.1 (by simpa using hnd : (i :: l.map Prod.fst).Nodup)
    have hlt' : ∀ e ∈ l, e.1 < ns + ne + nc := fun e he => hlt e (List.mem_cons_of_mem _ he)
    have hin : i < ns + ne + nc := hlt (i, r) (by simp)
    have hne : ∀ e ∈ l, e.1 ≠ i := fun e he q => hi (q ▸ List.mem_map_of_mem he)
    have fin : ∀ g1 : MeshGen, g1.radius = (fun q => if q = i then r else g.radius q) → g1.file = g.file →
        (g1.surfaceShrunk = true ↔ g.surfaceShrunk = true ∨ i < ns) → (g1.edgeShrunk = true ↔ g.edgeShrunk = true ∨ (ns ≤ i ∧ i < ns + ne)) → (g1.cornerShrunk = true ↔ g.cornerShrunk = true ∨ ns + ne ≤ i) →
        ∃ g', shrinkAll ns ne nc l g1 = some g' ∧ g'.file = g.file ∧ (∀ e ∈ (i, r) :: l, g'.radius e.1 = e.2) ∧ (∀ q : Nat, (∀ e ∈ (i, r) :: l, e.1 ≠ q) → g'.radius q = g.radius q) ∧
          (g'.surfaceShrunk = true ↔ g.surfaceShrunk = true ∨ ∃ e ∈ (i, r) :: l, e.1 < ns) ∧
          (g'.edgeShrunk = true ↔ g.edgeShrunk = true ∨ ∃ e ∈ (i, r) :: l, ns ≤ e.1 ∧ e.1 < ns + ne) ∧
          (g'.cornerShrunk = true ↔ g.cornerShrunk = true ∨ ∃ e ∈ (i, r) :: l, ns + ne ≤ e.1) := by
      intro g1 h1 h2 h3 h4 h5
      obtain ⟨g', a1, a2, a3, a4, a5, a6, a7⟩ := ih g1 hnd' hlt'
      refine ⟨g', a1, a2.trans h2, ?_, ?_, ?_, ?_, ?_⟩
      · intro e he
        rcases List.mem_cons.1 he with q | q
        · subst q
          show g'.radius i = r
          rw [a4 i hne, h1]
          simp
        · exact a3 e q
      · intro q hq
        rw [a4 q fun e he => hq e (List.mem_cons_of_mem _ he), h1]
        show (if q = i then r else g.radius q) = _
        rw [if_neg fun h => hq (i, r) (by simp) h.symm]
      · rw [a5, h3]
        simp only [List.mem_cons, exists_eq_or_imp, or_assoc]
      · rw [a6, h4]
        simp only [List.mem_cons, exists_eq_or_imp, or_assoc]
      · rw [a7, h5]
        simp only [List.mem_cons, exists_eq_or_imp, or_assoc]
    unfold shrinkAll
    simp only []
    by_cases c1 : i < ns
    · rw [if_pos c1]
      exact fin _ rfl rfl (by simp [c1]) (by simp; omega) (by simp; omega)
    · rw [if_neg c1]
      by_cases c2 : i < ns + ne
      · rw [if_pos c2]
        exact fin _ rfl rfl (by simp; omega) (by simp; omega) (by simp; omega)
      · rw [if_neg c2, if_pos hin]
        exact fin _ rfl rfl (by simp; omega) (by simp; omega) (by simp; omega)

/-- **C128 (c).** Where the first pass finds slivers the mesh is lost: whenever the function returns, the file holds no triangle, whatever mesh was found for the spheres that were shrunk. -/
theorem C128_file_false (ns ne nc : Nat) (dist : Nat → Nat → ℝ) (pass : ℝ → (Nat → ℝ) → Option (List (Nat × ℝ) × List (List Nat))) (fuel : Nat) (L : ℝ) (g g' : MeshGen) (slivers : List (Nat × ℝ)) (faces : List (List Nat))
    (hp : pass L g.radius = some (slivers, faces)) (hs : slivers ≠ []) (h : generateMesh ns ne nc dist pass fuel L g = some g') : g'.file = [] := by
  cases fuel with
  | zero => simp [generateMesh] at h
  | succ fuel =>
    unfold generateMesh at h
    rw [hp] at h
    simp only [] at h
    split at h
    · cases h
    · rw [if_pos (List.length_pos_iff.2 hs)] at h
      split at h
      · cases h
      · rw [checkAndSave_empty] at h
        have := Option.some.inj h
        rw [← this]

/-- **C128 (d).** The passes after the first do not use the constant that was given: for any two constants with the same first pass, the results are the same. -/
theorem C128_constant_false (ns ne nc : Nat) (dist : Nat → Nat → ℝ) (pass : ℝ → (Nat → ℝ) → Option (List (Nat × ℝ) × List (List Nat))) (fuel : Nat) (L L' : ℝ) (g : MeshGen) (hp : pass L g.radius = pass L' g.radius) :
    generateMesh ns ne nc dist pass fuel L g = generateMesh ns ne nc dist pass fuel L' g := by
  cases fuel with
  | zero => rfl
  | succ fuel =>
    unfold generateMesh
    rw [hp]

theorem shrinkAll_range (ns ne nc : Nat) : ∀ (l : List (Nat × ℝ)) (g g' : MeshGen), shrinkAll ns ne nc l g = some g' → ∀ e ∈ l, e.1 < ns + ne + nc := by
  intro l
  induction l with
  | nil => intro g g' _ e he; simp at he
  | cons a l ih =>
    intro g g' h e he
    obtain ⟨i, r⟩ := a
    unfold shrinkAll at h
    simp only at h
    by_cases h1 : i < ns
    · rw [if_pos h1] at h
      rcases List.mem_cons.1 he with rfl | he
      · simp only; omega
      · exact ih _ g' h e he
    · rw [if_neg h1] at h
      by_cases h2 : i < ns + ne
      · rw [if_pos h2] at h
        rcases List.mem_cons.1 he with rfl | he
        · simp only; omega
        · exact ih _ g' h e he
      · rw [if_neg h2] at h
        by_cases h3 : i < ns + ne + nc
        · rw [if_pos h3] at h
          rcases List.mem_cons.1 he with rfl | he
          · exact h3
          · exact ih _ g' h e he
        · rw [if_neg h3] at h
          cases h

/-- **C128 (f).** Whenever the function returns, the slivers of its pass were spheres of one of the three trees. -/
theorem C128_range (ns ne nc : Nat) (dist : Nat → Nat → ℝ) (pass : ℝ → (Nat → ℝ) → Option (List (Nat × ℝ) × List (List Nat))) (fuel : Nat) (L : ℝ) (g g' : MeshGen) (slivers : List (Nat × ℝ)) (faces : List (List Nat))
    (hp : pass L g.radius = some (slivers, faces)) (h : generateMesh ns ne nc dist pass fuel L g = some g') : ∀ e ∈ slivers, e.1 < ns + ne + nc := by
  cases fuel with
  | zero => cases h
  | succ fuel =>
    unfold generateMesh at h
    rw [hp] at h
    simp only at h
    cases hs : shrinkAll ns ne nc slivers g with
    | none => rw [hs] at h; cases h
    | some q => exact shrinkAll_range ns ne nc slivers g q hs

/-- **C128 (e).** The recursion has no end of its own: where every pass finds a sliver, the function never returns. -/
theorem C128_never_ends (ns ne nc : Nat) (dist : Nat → Nat → ℝ) (pass : ℝ → (Nat → ℝ) → Option (List (Nat × ℝ) × List (List Nat))) (hp : ∀ L r s f, pass L r = some (s, f) → s ≠ []) :
    ∀ (fuel : Nat) (L : ℝ) (g : MeshGen), generateMesh ns ne nc dist pass fuel L g = none := by
  intro fuel
  induction fuel with
  | zero => intro L g; rfl
  | succ fuel ih =>
    intro L g
    unfold generateMesh
    cases hq : pass L g.radius with
    | none => rfl
    | some t =>
      obtain ⟨s, f⟩ := t
      simp only []
      cases shrinkAll ns ne nc s g with
      | none => rfl
      | some g' =>
        simp only []
        rw [if_pos (List.length_pos_iff.2 (hp L g.radius s f hq)), ih]

/-! ## Examples -/

/-- Four spheres; the first has a sliver as long as its radius is more than one, and the mesh is the tetrahedron. -/
noncomputable def exPass (_ : ℝ) (r : Nat → ℝ) : Option (List (Nat × ℝ) × List (List Nat)) :=
  if r 0 > 1 then some ([(0, 1)], []) else some ([], [[0, 1, 2], [0, 3, 1], [1, 3, 2], [2, 3, 0]])

/-- From radii of one, the tetrahedron is written. -/
example : ∃ g', generateMesh 4 0 0 (fun _ _ => 2) exPass 1 0.25 ⟨fun _ => 1, false, false, false, []⟩ = some g' ∧ g'.file = [[0, 1, 2], [0, 3, 1], [1, 3, 2], [2, 3, 0]] := by
  obtain ⟨g', h1, h2, _⟩ := C128_mesh_partial 4 0 0 (fun _ _ => 2) (fun _ _ => rfl) exPass 0 0.25 ⟨fun _ => 1, false, false, false, []⟩ [[0, 1, 2], [0, 3, 1], [1, 3, 2], [2, 3, 0]]
    (by unfold exPass; rw [if_neg (by norm_num)]) (by unfold TriMesh; decide) (by unfold SimpleFaces; decide)
  exact ⟨g', h1, h2⟩

/-- From radii of two, the function returns with the radius shrunk, and the file is empty. -/
example : ∃ g', generateMesh 4 0 0 (fun _ _ => 2) exPass 2 0.25 ⟨fun _ => 2, false, false, false, []⟩ = some g' ∧ g'.file = [] ∧ g'.surfaceShrunk = true := by
  obtain ⟨g1, h1, _, hr, _, hfs, _⟩ := C128_slivers 4 0 0 [(0, 1)] ⟨fun _ => 2, false, false, false, []⟩ (by simp) (by simp)
  have hr0 : g1.radius 0 = 1 := hr (0, 1) (by simp)
  have ht : TriMesh (4 + 0 + 0) [[0, 1, 2], [0, 3, 1], [1, 3, 2], [2, 3, 0]] := by unfold TriMesh; decide
  have hs : SimpleFaces [[0, 1, 2], [0, 3, 1], [1, 3, 2], [2, 3, 0]] := by unfold SimpleFaces; decide
  have hp : exPass 0.25 g1.radius = some ([], [[0, 1, 2], [0, 3, 1], [1, 3, 2], [2, 3, 0]]) := by
    unfold exPass
    rw [hr0, if_neg (by norm_num)]
  obtain ⟨b, s, e, _, _, _, _, _, _, _, hfl, _⟩ := C125_repair_partial 4 0 0 _ ht hs (fun _ _ => 2) (fun _ _ => rfl) g1.radius g1.surfaceShrunk g1.edgeShrunk g1.cornerShrunk
  have hg2 : generateMesh 4 0 0 (fun _ _ => 2) exPass 1 0.25 g1 = some { radius := s.radius, surfaceShrunk := s.surfaceShrunk, edgeShrunk := s.edgeShrunk, cornerShrunk := s.cornerShrunk, file := [[0, 1, 2], [0, 3, 1], [1, 3, 2], [2, 3, 0]] } := by
    unfold generateMesh
    rw [hp]
    simp only [shrinkAll, List.length_nil, gt_iff_lt, lt_irrefl, if_false]
    unfold checkAndSave
    rw [e]
  have hp2 : exPass 0.25 (fun _ => 2) = some ([(0, 1)], []) := by
    unfold exPass
    rw [if_pos (by norm_num)]
  refine ⟨{ radius := s.radius, surfaceShrunk := s.surfaceShrunk, edgeShrunk := s.edgeShrunk, cornerShrunk := s.cornerShrunk, file := [] }, ?_, rfl, hfl.2 (Or.inl (hfs.2 (Or.inr ⟨(0, 1), by simp, by simp⟩)))⟩
  rw [generateMesh, hp2]
  simp only [h1, List.length_cons, List.length_nil]
  rw [if_pos (by norm_num), hg2]
  simp only [checkAndSave_empty]

end VoroCrust
