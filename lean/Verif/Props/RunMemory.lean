import Verif.Model.RunMemory
import Verif.Props.TreeMemory

/-!
# Properties of what `execute_vc` allocates and hands on (C134)
-/

namespace VoroCrust

theorem runMem_step (s : List Nat × List Nat) (ss : List (List Nat × List Nat)) (live : List Nat) (h : ∀ a, s.2.count a ≤ s.1.count a + live.count a) :
    ∃ l, runMem (s :: ss) live = runMem ss l ∧ ∀ a, l.count a = s.1.count a + live.count a - s.2.count a := by
  obtain ⟨r, h1, h2⟩ := freeBlocks_ok s.2 (s.1 ++ live) (fun a => by rw [List.count_append]; exact h a)
  refine ⟨r, ?_, fun a => ?_⟩
  · conv_lhs => unfold runMem
    rw [h1]
  · rw [h2 a, List.count_append]

theorem runMem_replace (ss : List (List Nat × List Nat)) : ∀ (n : Nat) (live : List Nat), ∃ l, runMem (List.replicate n stepReplace ++ ss) live = runMem ss l ∧ ∀ a, l.count a = live.count a := by
  intro n
  induction n with
  | zero => intro live; exact ⟨live, rfl, fun _ => rfl⟩
  | succ n ih =>
    intro live
    rw [List.replicate_succ, List.cons_append]
    obtain ⟨l, h1, h2⟩ := runMem_step stepReplace (List.replicate n stepReplace ++ ss) live (fun a => by show vSeeds.count a ≤ vSeeds.count a + live.count a; omega)
    obtain ⟨r, h3, h4⟩ := ih l
    refine ⟨r, by rw [h1, h3], fun a => ?_⟩
    rw [h4 a, h2 a]
    show vSeeds.count a + live.count a - vSeeds.count a = live.count a
    omega

theorem runMem_replaceIf (c : Bool) (ss : List (List Nat × List Nat)) (live : List Nat) : ∃ l, runMem ((if c then [stepReplace] else []) ++ ss) live = runMem ss l ∧ ∀ a, l.count a = live.count a := by
  cases c with
  | false => exact ⟨live, rfl, fun _ => rfl⟩
  | true => exact runMem_replace ss 1 live

/-- What is left of a run: the array of the sharp edges if there is none, the array of the corners if there is none, one array for each imposed point at the place of a seed, and the arrays of the seeds if no mesh is asked for. -/
def lostBlocks (p : RunPlan) : List Nat :=
  (if p.sharpEdges = 0 then [vSharpEdges] else []) ++ (if p.sharpCorners = 0 then [vSharpCorners] else []) ++ (if p.impose then List.replicate p.hits vInSphere else []) ++ (if p.output then [] else vSeeds)

theorem count_listIf (c : Bool) (l : List Nat) (a : Nat) : (listIf c l).count a = if c then l.count a else 0 := by
  unfold listIf
  cases c <;> rfl

theorem count_posIf (n : Nat) (l : List Nat) (a : Nat) : (listIf (decide (n > 0)) l).count a + (if n = 0 then l.count a else 0) = l.count a := by
  rw [count_listIf]
  cases n with
  | zero => simp
  | succ n => simp

/-- **C134** (run): for every run, whatever the numbers of features, spheres and points, nothing is freed that is not allocated, and what is left at the end is exactly `lostBlocks`. -/
theorem C134_run (p : RunPlan) (live : List Nat) : ∃ l, runVc p live = some l ∧ l.Perm (lostBlocks p ++ live) := by
  unfold runVc runSteps
  simp only [List.append_assoc, List.cons_append, List.nil_append]
  obtain ⟨l1, e1, c1⟩ := runMem_step (stepDetect p) _ (listIf p.sizing [vSizing] ++ live) (fun a => by simp [stepDetect])
  rw [e1]
  have d1 : ∀ a, l1.count a = (stepDetect p).1.count a + (listIf p.sizing [vSizing]).count a + live.count a := by
    intro a
    have := c1 a
    rw [List.count_append] at this
    simp only [stepDetect, List.count_nil] at this ⊢
    omega
  obtain ⟨l2, e2, c2⟩ := runMem_step (stepColour p) _ l1 (fun a => by
    rw [d1 a]
    simp only [stepDetect, stepColour, List.count_append, List.count_cons, List.count_nil, count_listIf]
    split_ifs <;> omega)
  rw [e2]
  have d2 : ∀ a, l2.count a + (stepColour p).2.count a = (stepDetect p).1.count a + (listIf p.sizing [vSizing]).count a + live.count a := by
    intro a
    have h1 := c2 a
    rw [d1 a] at h1
    have h2 : (stepColour p).2.count a ≤ (stepDetect p).1.count a := by
      simp only [stepDetect, stepColour, List.count_append, List.count_cons, List.count_nil, count_listIf]
      split_ifs <;> omega
    have h3 : (stepColour p).1.count a = 0 := by simp [stepColour]
    omega
  have d2' : ∀ a, l2.count a = (vSeedTree :: vSpheres).count a + (listIf p.sizing [vSizing]).count a + (if p.sharpEdges = 0 then [vSharpEdges].count a else 0) + (if p.sharpCorners = 0 then [vSharpCorners].count a else 0) + live.count a := by
    intro a
    have h := d2 a
    have kE := count_posIf p.sharpEdges [vSharpEdges] a
    have kC := count_posIf p.sharpCorners [vSharpCorners] a
    have f1 : (stepDetect p).1.count a = vClouds.count a + vSpheres.count a + vSurf.count a + ([vSeedTree].count a + [vSampler].count a + [vSharpEdges].count a + [vSharpCorners].count a) + (List.replicate p.sharpEdges vSharpEdge).count a := by
      simp only [stepDetect, List.count_append, List.count_cons, List.count_nil]
      omega
    have f2 : (stepColour p).2.count a = vSurf.count a + vClouds.count a + (List.replicate p.sharpEdges vSharpEdge).count a + (listIf (decide (p.sharpEdges > 0)) [vSharpEdges]).count a + (listIf (decide (p.sharpCorners > 0)) [vSharpCorners]).count a + [vSampler].count a := by
      simp only [stepColour, List.count_append]
    have f3 : (vSeedTree :: vSpheres).count a = vSpheres.count a + [vSeedTree].count a := by
      simp only [List.count_cons, List.count_nil]
      omega
    omega
  obtain ⟨l3, e3, c3⟩ := runMem_step (stepArrays p) _ l2 (fun a => by
    rw [d2' a]
    simp only [stepArrays, List.count_append, List.count_cons, List.count_nil, count_listIf]
    omega)
  rw [e3]
  have d3 : ∀ a, l3.count a = (stepArrays p).1.count a + (if p.sharpEdges = 0 then [vSharpEdges].count a else 0) + (if p.sharpCorners = 0 then [vSharpCorners].count a else 0) + live.count a := by
    intro a
    have h1 := c3 a
    rw [d2' a] at h1
    have h2 : (stepArrays p).2.count a = (vSeedTree :: vSpheres).count a + (listIf p.sizing [vSizing]).count a := by
      simp only [stepArrays, List.count_append, List.count_cons, List.count_nil]
      omega
    omega
  obtain ⟨l4, e4, c4⟩ := runMem_replaceIf p.edgeSeeds _ l3
  rw [e4]
  obtain ⟨l5, e5, c5⟩ := runMem_step (stepImpose p) _ l4 (fun a => by simp [stepImpose])
  rw [e5]
  obtain ⟨l6, e6, c6⟩ := runMem_replaceIf (p.impose && p.imposedSeeds) _ l5
  rw [e6]
  obtain ⟨l7, e7, c7⟩ := runMem_replace _ p.rounds l6
  rw [e7]
  obtain ⟨l8, e8, c8⟩ := runMem_step (stepRetrieve p) _ l7 (fun a => by simp [stepRetrieve])
  rw [e8]
  obtain ⟨l9, e9, c9⟩ := runMem_replaceIf (p.impose && p.invalidated) _ l8
  rw [e9]
  have d9 : ∀ a, l9.count a = (stepArrays p).1.count a + (stepImpose p).1.count a + (stepRetrieve p).1.count a + (if p.sharpEdges = 0 then [vSharpEdges].count a else 0) + (if p.sharpCorners = 0 then [vSharpCorners].count a else 0) + live.count a := by
    intro a
    have h5 := c5 a
    have h8 := c8 a
    have h5' : (stepImpose p).2.count a = 0 := by simp [stepImpose]
    have h8' : (stepRetrieve p).2.count a = 0 := by simp [stepRetrieve]
    rw [c9 a, h8, c7 a, c6 a, h5, c4 a, d3 a]
    omega
  have r1 : ∀ a, (stepRetrieved p).2.count a + (if p.impose then (List.replicate p.hits vInSphere).count a else 0) = (stepImpose p).1.count a + (stepRetrieve p).1.count a := by
    intro a
    simp only [stepRetrieved, stepImpose, stepRetrieve, count_listIf]
    cases p.impose
    · rfl
    · simp only [if_true, List.count_append, List.count_cons, List.count_nil]
      omega
  obtain ⟨l10, e10, c10⟩ := runMem_step (stepRetrieved p) _ l9 (fun a => by
    have := d9 a
    have := r1 a
    omega)
  rw [e10]
  have r2 : ∀ a, (stepFreeArrays p).2.count a + vSeeds.count a = (stepArrays p).1.count a := by
    intro a
    simp only [stepFreeArrays, stepArrays, List.count_append]
    omega
  have d10 : ∀ a, l10.count a = (stepFreeArrays p).2.count a + vSeeds.count a + (if p.impose then (List.replicate p.hits vInSphere).count a else 0) + (if p.sharpEdges = 0 then [vSharpEdges].count a else 0) + (if p.sharpCorners = 0 then [vSharpCorners].count a else 0) + live.count a := by
    intro a
    have h1 := c10 a
    have h2 := d9 a
    have h3 := r1 a
    have h4 := r2 a
    have h5 : (stepRetrieved p).1.count a = 0 := by simp [stepRetrieved]
    omega
  obtain ⟨l11, e11, c11⟩ := runMem_step (stepFreeArrays p) _ l10 (fun a => by have := d10 a; omega)
  rw [e11]
  obtain ⟨l12, e12, c12⟩ := runMem_step (stepMonitor p) _ l11 (fun a => by show (stepMonitor p).1.count a ≤ (stepMonitor p).1.count a + l11.count a; omega)
  rw [e12]
  have d12 : ∀ a, l12.count a = vSeeds.count a + (if p.impose then (List.replicate p.hits vInSphere).count a else 0) + (if p.sharpEdges = 0 then [vSharpEdges].count a else 0) + (if p.sharpCorners = 0 then [vSharpCorners].count a else 0) + live.count a := by
    intro a
    have h1 := c12 a
    have h2 := c11 a
    have h3 := d10 a
    have h4 : (stepFreeArrays p).1.count a = 0 := by simp [stepFreeArrays]
    have h5 : (stepMonitor p).2.count a = (stepMonitor p).1.count a := rfl
    omega
  obtain ⟨l13, e13, c13⟩ := runMem_step (stepMesh p) [] l12 (fun a => by
    have := d12 a
    simp only [stepMesh, count_listIf]
    split_ifs <;> omega)
  rw [e13]
  refine ⟨l13, rfl, ?_⟩
  rw [List.perm_iff_count]
  intro a
  have h1 := c13 a
  have h2 := d12 a
  have h3 : (stepMesh p).1.count a = 0 := by simp [stepMesh]
  rw [h3, h2] at h1
  unfold lostBlocks
  simp only [stepMesh, count_listIf] at h1
  rw [List.count_append, List.count_append, List.count_append, List.count_append]
  have i1 : (if p.sharpEdges = 0 then [vSharpEdges] else []).count a = if p.sharpEdges = 0 then [vSharpEdges].count a else 0 := by split_ifs <;> rfl
  have i2 : (if p.sharpCorners = 0 then [vSharpCorners] else []).count a = if p.sharpCorners = 0 then [vSharpCorners].count a else 0 := by split_ifs <;> rfl
  have i3 : (if p.impose then List.replicate p.hits vInSphere else []).count a = if p.impose then (List.replicate p.hits vInSphere).count a else 0 := by split_ifs <;> rfl
  rw [i1, i2, i3]
  cases hO : p.output
  · rw [hO] at h1
    simp only [Bool.false_eq_true, if_false] at h1 ⊢
    omega
  · rw [hO] at h1
    simp only [if_true, List.count_nil] at h1 ⊢
    omega

/-- **C134** (nothing lost): a run for a mesh file, on a surface with sharp edges and corners and without an imposed point at the place of a seed, leaves the memory as it was, without the sizing function that it was given.  Missing: the
other runs lose blocks (`C134_lost`). -/
theorem C134_clean_partial (p : RunPlan) (live : List Nat) (hE : 0 < p.sharpEdges) (hC : 0 < p.sharpCorners) (hI : p.impose = false ∨ p.hits = 0) (hO : p.output = true) :
    ∃ l, runVc p live = some l ∧ l.Perm live := by
  obtain ⟨l, h1, h2⟩ := C134_run p live
  refine ⟨l, h1, ?_⟩
  have e : lostBlocks p = [] := by
    unfold lostBlocks
    rw [if_neg (by omega), if_neg (by omega), if_pos hO]
    rcases hI with hI | hI
    · rw [hI]; rfl
    · rw [hI]; simp
  rw [e] at h2
  exact h2

/-- **C134** (lost): every other run loses blocks: the run of a surface without sharp edges or without corners, one with an imposed point at the place of a seed, and one that stops at the seeds. -/
theorem C134_lost (p : RunPlan) (live : List Nat) (h : p.sharpEdges = 0 ∨ p.sharpCorners = 0 ∨ (p.impose = true ∧ 0 < p.hits) ∨ p.output = false) : ∃ l, runVc p live = some l ∧ live.length < l.length := by
  obtain ⟨l, h1, h2⟩ := C134_run p live
  refine ⟨l, h1, ?_⟩
  rw [h2.length_eq, List.length_append]
  have : 0 < (lostBlocks p).length := by
    unfold lostBlocks
    rw [List.length_append, List.length_append, List.length_append]
    rcases h with h | h | h | h
    · rw [if_pos h]; simp only [List.length_cons, List.length_nil]; omega
    · rw [if_pos h]; simp only [List.length_cons, List.length_nil]; omega
    · rw [if_pos h.1, List.length_replicate]; omega
    · rw [h]; simp only [Bool.false_eq_true, if_false, vSeeds, List.length_cons, List.length_nil]; omega
  omega

/-- A run with three sharp edges and two corners, spheres of every kind and a mesh file leaves nothing; the run of a smooth surface with two imposed points found leaves four blocks. -/
example : runVc ⟨true, 3, 2, 50, 10, 2, 7, true, true, true, 0, true, 4, true, true⟩ [] = some [] ∧ (runVc ⟨false, 0, 0, 50, 0, 0, 0, false, true, true, 2, false, 4, true, true⟩ []).map List.length = some 4 := by decide

end VoroCrust
