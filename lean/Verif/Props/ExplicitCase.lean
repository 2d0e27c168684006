import Verif.Props.Explicit
import Verif.Props.MeshGapVolumeCase

/-!
# C107 for a cubic lattice

The eight inner seeds of the lattice of MeshGapCase, with both files written.
-/

namespace VoroCrust

open Classical

theorem lattice_dist (u : Nat → ℝ) (a b c : ℤ) : distSq3 u (mkSphere a b c 0) = (u 0 - a) ^ 2 + (u 1 - b) ^ 2 + (u 2 - c) ^ 2 := by
  simp only [distSq3, mkSphere]
  norm_num
  ring

theorem half_of_near {x : ℝ} {m m' : ℤ} (h : |x - m| ≤ 1 / 2) (hne : m ≠ m') (e : (x - m) ^ 2 = (x - m') ^ 2) : |x - m| = 1 / 2 := by
  have h2 : ((m' : ℝ) - m) * (2 * x - m - m') = 0 := by linear_combination e
  have h3 : (m' : ℝ) - m ≠ 0 := fun h => hne (by exact_mod_cast (sub_eq_zero.1 h).symm)
  have h4 : 2 * x - m - m' = 0 := by
    rcases mul_eq_zero.1 h2 with h | h
    · exact absurd h h3
    · exact h
  have h5 : x - m = ((m' : ℝ) - m) / 2 := by linarith
  rw [h5, abs_div, abs_two] at h ⊢
  have h6 : (1 : ℝ) ≤ |(m' : ℝ) - m| := by
    have : (1 : ℤ) ≤ |m' - m| := Int.one_le_abs (sub_ne_zero.2 fun h => hne h.symm)
    exact_mod_cast this
  linarith

theorem near_le {x : ℝ} {m : ℤ} (m' : ℤ) (h : |x - m| ≤ 1 / 2) : (x - m) ^ 2 ≤ (x - m') ^ 2 := by
  rw [abs_le] at h
  rcases lt_trichotomy m m' with g | g | g
  · have : (m : ℝ) + 1 ≤ m' := by exact_mod_cast g
    nlinarith
  · rw [g]
  · have : (m' : ℝ) + 1 ≤ m := by exact_mod_cast g
    nlinarith

/-- A vertex of the diagram is a corner of a cube. -/
theorem lattice_vertex {z : Nat → ℝ} (hz : IsDiagramVertex latticeSeeds z) : ∃ a b c : ℤ, latticeInner (a, b, c) = true ∧ |z 0 - a| = 1 / 2 ∧ |z 1 - b| = 1 / 2 ∧ |z 2 - c| = 1 / 2 := by
  obtain ⟨i, ⟨s, hi, hr⟩, hc, hu⟩ := hz
  obtain ⟨a, b, c, hp, hin, -⟩ := lattice_inner hi hr
  obtain ⟨h0, h1, h2⟩ := lattice_cell hp hin hc
  -- seeds as near as the nearest
  have near : ∀ y, y < latticeSeeds.length → CommonFace latticeSeeds i y z → ∃ a' b' c' : ℤ, seedPos latticeSeeds y = mkSphere a' b' c' 0 ∧ (z 0 - a) ^ 2 = (z 0 - a') ^ 2 ∧ (z 1 - b) ^ 2 = (z 1 - b') ^ 2 ∧ (z 2 - c) ^ 2 = (z 2 - c') ^ 2 := fun y hy ⟨_, he⟩ => by
    obtain ⟨a', b', c', -, -, -, e⟩ := lattice_get hy
    refine ⟨a', b', c', e, ?_⟩
    have e1 : distSq3 z (mkSphere a b c 0) = distSq3 z (mkSphere a' b' c' 0) := by rw [distSq3_sq, distSq3_sq, ← hp, ← e, he]
    rw [lattice_dist, lattice_dist] at e1
    have k0 := near_le a' h0
    have k1 := near_le b' h1
    have k2 := near_le c' h2
    exact ⟨by linarith, by linarith, by linarith⟩
  have key : ∀ w : Nat → ℝ, (∀ a' b' c' : ℤ, (z 0 - a) ^ 2 = (z 0 - a') ^ 2 → (z 1 - b) ^ 2 = (z 1 - b') ^ 2 → (z 2 - c) ^ 2 = (z 2 - c') ^ 2 →
      (w 0 - a) ^ 2 + (w 1 - b) ^ 2 + (w 2 - c) ^ 2 = (w 0 - a') ^ 2 + (w 1 - b') ^ 2 + (w 2 - c') ^ 2) → ∀ d, d < 3 → w d = z d := fun w hw => hu w fun y hy hf => by
    obtain ⟨a', b', c', e, e0, e1, e2⟩ := near y hy hf
    rw [hp, e, ← sqrt_distSq3, ← sqrt_distSq3, lattice_dist, lattice_dist, hw a' b' c' e0 e1 e2]
  refine ⟨a, b, c, hin, ?_, ?_, ?_⟩
  · by_contra hne
    have := key (fun d => if d = 0 then z 0 + 1 else z d) (fun a' b' c' e0 e1 e2 => by
      have : a = a' := by by_contra h; exact hne (half_of_near h0 h e0)
      subst this
      simp only [if_true, one_ne_zero, if_false, OfNat.ofNat_ne_zero]
      linarith) 0 (by norm_num)
    simp at this
  · by_contra hne
    have := key (fun d => if d = 1 then z 1 + 1 else z d) (fun a' b' c' e0 e1 e2 => by
      have : b = b' := by by_contra h; exact hne (half_of_near h1 h e1)
      subst this
      simp only [if_true, zero_ne_one, if_false, OfNat.ofNat_ne_one]
      linarith) 1 (by norm_num)
    simp at this
  · by_contra hne
    have := key (fun d => if d = 2 then z 2 + 1 else z d) (fun a' b' c' e0 e1 e2 => by
      have : c = c' := by by_contra h; exact hne (half_of_near h2 h e2)
      subst this
      have f0 : ((0 : Nat) = 2) = False := by simp
      have f1 : ((1 : Nat) = 2) = False := by simp
      simp only [if_true, f0, f1, if_false]
      linarith) 2 (by norm_num)
    simp at this

/-- A coordinate of a corner. -/
theorem corner_coord {x : ℝ} {a : ℤ} (ha : a = 0 ∨ a = 1) (h : |x - a| = 1 / 2) : ∃ k : Nat, k < 3 ∧ x = (k : ℝ) - 1 / 2 := by
  rcases (abs_eq (by norm_num)).1 h with h | h <;> rcases ha with rfl | rfl
  · exact ⟨1, by norm_num, by norm_num at h ⊢; linarith⟩
  · exact ⟨2, by norm_num, by norm_num at h ⊢; linarith⟩
  · exact ⟨0, by norm_num, by norm_num at h ⊢; linarith⟩
  · exact ⟨1, by norm_num, by norm_num at h ⊢; linarith⟩

theorem lattice_corner {z : Nat → ℝ} (hz : IsDiagramVertex latticeSeeds z) : ∃ k : Fin 3 × Fin 3 × Fin 3, z 0 = (k.1 : ℝ) - 1 / 2 ∧ z 1 = (k.2.1 : ℝ) - 1 / 2 ∧ z 2 = (k.2.2 : ℝ) - 1 / 2 := by
  obtain ⟨a, b, c, hin, h0, h1, h2⟩ := lattice_vertex hz
  simp only [latticeInner, Bool.and_eq_true, Bool.or_eq_true, beq_iff_eq] at hin
  obtain ⟨k0, l0, e0⟩ := corner_coord hin.1.1 h0
  obtain ⟨k1, l1, e1⟩ := corner_coord hin.1.2 h1
  obtain ⟨k2, l2, e2⟩ := corner_coord hin.2 h2
  exact ⟨(⟨k0, l0⟩, ⟨k1, l1⟩, ⟨k2, l2⟩), e0, e1, e2⟩

theorem lattice_length : latticeSeeds.length = 64 := by unfold latticeSeeds; rw [List.length_map]; decide +kernel

/-- The mesh of the lattice fits. -/
theorem lattice_fits {M : VMesh} (h : IsDiagramMesh latticeSeeds M) : ExoFits latticeSeeds M := by
  have hv : M.nv ≤ 27 := by
    choose u hu1 hu2 using h.vertex
    choose k hk using fun (v : Nat) (hv : v < M.nv) => lattice_corner (hu2 v hv)
    have inj : Function.Injective fun v : Fin M.nv => k v.1 v.2 := fun v v' e => by
      obtain ⟨a0, a1, a2⟩ := hk v.1 v.2
      obtain ⟨b0, b1, b2⟩ := hk v'.1 v'.2
      simp only at e
      rw [e] at a0 a1 a2
      refine Fin.ext (h.distinct v v' _ _ v.2 v'.2 (hu1 v.1 v.2) (hu1 v'.1 v'.2) fun d hd => ?_)
      interval_cases d
      · rw [a0, b0]
      · rw [a1, b1]
      · rw [a2, b2]
    have := Fintype.card_le_of_injective _ inj
    simpa using this
  have hf : M.nf ≤ 4096 := by
    choose g hg1 hg2 using h.face
    have lt : ∀ k (hk : k < M.nf), (g k hk).seed < 64 ∧ (g k hk).nbr < 64 := fun k hk => by
      have a := (hg2 k hk).1.seed.lt
      have b := (hg2 k hk).1.nbr
      rw [lattice_length] at a b
      exact ⟨a, b⟩
    have inj : Function.Injective fun k : Fin M.nf => ((⟨(g k.1 k.2).seed, (lt k.1 k.2).1⟩, ⟨(g k.1 k.2).nbr, (lt k.1 k.2).2⟩) : Fin 64 × Fin 64) := fun k k' e => by
      simp only [Prod.mk.injEq, Fin.mk.injEq] at e
      exact Fin.ext (h.once k k' _ _ k.2 k'.2 (hg1 k.1 k.2) (hg1 k'.1 k'.2) (Or.inl e))
    have := Fintype.card_le_of_injective _ inj
    simpa using this
  have hi : intMax = 2147483647 := rfl
  refine ⟨by rw [lattice_length, hi]; norm_num, by rw [hi]; omega, by rw [hi]; omega, ?_⟩
  refine le_trans (List.sum_le_card_nsmul _ 27 fun x hx => ?_) ?_
  · obtain ⟨k, hk, rfl⟩ := List.mem_map.1 hx
    obtain ⟨g, e, hg, -⟩ := h.face k (List.mem_range.1 hk)
    rw [e]
    have : g.verts.toFinset ⊆ Finset.range M.nv := fun v hv => Finset.mem_range.2 (hg.verts v (List.mem_toFinset.1 hv))
    have := Finset.card_le_card this
    rw [List.toFinset_card_of_nodup hg.nodup, Finset.card_range] at this
    exact this.trans hv
  · rw [List.length_map, List.length_range, hi, smul_eq_mul]
    omega

theorem lattice_some : ∃ i, InnerSeed latticeSeeds i := by
  obtain ⟨i0, hi0, hp0⟩ := lattice_at (mem_lattice.2 (by omega) : ((0 : ℤ), (0 : ℤ), (0 : ℤ)) ∈ latticePoints)
  refine ⟨i0, ?_⟩
  obtain ⟨a, b, c, -, -, h1, h2⟩ := lattice_get hi0
  rw [hp0] at h2
  have e0 := congrFun h2 0
  have e1 := congrFun h2 1
  have e2 := congrFun h2 2
  simp only [mkSphere] at e0 e1 e2
  norm_num at e0 e1 e2
  have f0 : a = 0 := by exact_mod_cast e0.symm
  have f1 : b = 0 := by exact_mod_cast e1.symm
  have f2 : c = 0 := by exact_mod_cast e2.symm
  refine ⟨_, h1, ?_⟩
  rw [f0, f1, f2]
  simp [latticeSeed, latticeInner]

/-- Not vacuous: the run for the lattice, with both files.  The file for PFLOTRAN lists eight cells and the Exodus file has eight elements. -/
theorem lattice_run (flt : ℝ → ℝ) : ∃ F, ∀ fuel' fuel, F ≤ fuel' → F ≤ fuel → ∃ R file exo, explicitMesh flt true true 64 latticeSeeds fuel' fuel = some (some R) ∧ R.cells = 8 ∧
    R.vcg = some file ∧ file.cells.length = 8 ∧ R.exo = some exo ∧ exo.numElems = 8 ∧ R.seeds = latticeSeeds := by
  obtain ⟨F, hF⟩ := C107_grid flt true true 64 latticeSeeds (fun i s h1 h2 => absurd (List.getElem?_eq_some_iff.1 h2).1 (by rw [lattice_length]; omega)) (fun s hs => by
    unfold latticeSeeds at hs
    obtain ⟨p, -, rfl⟩ := List.mem_map.1 hs
    simp [latticeSeed]) lattice_grid lattice_apart (few_nearest (by rw [lattice_length]; omega)) lattice_some lattice_bound
  refine ⟨F, fun fuel' fuel h1 h2 => ?_⟩
  obtain ⟨mesh, -, e2, e3⟩ := hF fuel' fuel h1 h2
  obtain ⟨R, f1, f2, f3⟩ := e3 fun _ => lattice_fits e2
  obtain ⟨file, g1, g2⟩ : ∃ file, R.vcg = some file ∧ VcgCells (FlatFace latticeSeeds) latticeSeeds R.seeds file := f3.vcg
  obtain ⟨exo, k1, k2⟩ : ∃ file, R.exo = some file ∧ ExoOf flt R.seeds R.mesh file := f3.exo
  have hd : DistinctSeeds latticeSeeds := ⟨fun i j hi hj hij => by
    refine lt_of_le_of_ne (euclid_nonneg 3 _ _) fun e => hij (lattice_apart i j hi hj (dist_zero.1 ?_))
    rw [distSq3_sq, ← e]
    norm_num⟩
  have hseeds : R.seeds = latticeSeeds := by
    rw [← lattice_length] at f3
    exact f3.same (f2 ▸ e2.cellMesh hd)
  have h8 : latticeSeeds.countP SeedRec.inside = 8 := by
    have : (fun p : ℤ × ℤ × ℤ => SeedRec.inside (latticeSeed p)) = latticeInner := by
      funext p
      unfold SeedRec.inside latticeSeed
      cases h : latticeInner p <;> simp
    unfold latticeSeeds
    rw [List.countP_map]
    show latticePoints.countP (fun p : ℤ × ℤ × ℤ => SeedRec.inside (latticeSeed p)) = 8
    rw [this]
    decide +kernel
  refine ⟨R, file, exo, f1, ?_, g1, ?_, k1, ?_, hseeds⟩
  · rw [f3.cells]
    have hf : ((Finset.range latticeSeeds.length).filter fun i => InnerSeed latticeSeeds i) = (Finset.range latticePoints.length).filter fun i => (latticePoints[i]?).any latticeInner = true := by
      have hl : latticeSeeds.length = latticePoints.length := by unfold latticeSeeds; rw [List.length_map]
      rw [hl]
      refine Finset.filter_congr fun i hi => ?_
      have e : latticePoints[i]? = some (latticePoints[i]'(Finset.mem_range.1 hi)) := List.getElem?_eq_getElem _
      have e' : latticeSeeds[i]? = some (latticeSeed (latticePoints[i]'(Finset.mem_range.1 hi))) := by unfold latticeSeeds; rw [List.getElem?_map, e]; rfl
      rw [e]
      unfold InnerSeed
      rw [e']
      cases h : latticeInner (latticePoints[i]'(Finset.mem_range.1 hi)) <;> simp [latticeSeed, h]
    rw [hf]
    decide +kernel
  · rw [g2.cells, hseeds, h8]
  · rw [k2.elems.1, hseeds, h8]
    rfl

/-! ## The lattice as a file -/

/-- A coordinate as text. -/
def latticeTok (a : ℤ) : List Char := if a = -1 then ['-', '1'] else if a = 0 then ['0'] else if a = 1 then ['1'] else ['2']

/-- Reading the numbers of the file. -/
noncomputable def latticeParse (t : Tok) : ℝ := if t = ['-', '1'] then -1 else if t = ['0'] then 0 else if t = ['1'] then 1 else if t = ['2'] then 2 else 1 / 2

def latticeParseNat (t : Tok) : Nat := if t = ['1'] then 1 else 0

/-- The seeds file of the lattice, with a line of headings. -/
def latticeFile : List Char := "x1coord,x2coord,x3coord,radius,region_id\n".toList ++
  latticePoints.flatMap fun p => latticeTok p.1 ++ ',' :: (latticeTok p.2.1 ++ ',' :: (latticeTok p.2.2 ++ [',', '.', '5', ',', if latticeInner p then '1' else '0', '\n']))

theorem seedOnLine_map {parse : Tok → ℝ} {parseNat : Tok → Nat} {ls : List (List Char)} {l : List (Seed Tok)} (h : List.Forall₂ (seedOnLine id parseNat) ls l) :
    List.Forall₂ (seedOnLine parse parseNat) ls (l.map fun s => ⟨parse s.x, parse s.y, parse s.z, parse s.sizing, s.region⟩) := by
  induction h with
  | nil => exact .nil
  | cons h1 _ ih =>
    refine .cons ?_ ih
    obtain ⟨a, b, c, d, e, h1, h2, h3, h4, h5, rfl⟩ := h1
    exact ⟨a, b, c, d, e, h1, h2, h3, h4, h5, rfl⟩

theorem lattice_text : readSeeds id latticeParseNat latticeFile = some (latticePoints.map fun p => ⟨latticeTok p.1, latticeTok p.2.1, latticeTok p.2.2, ['.', '5'], if latticeInner p then 1 else 0⟩) := by decide +kernel

theorem lattice_lines : ∀ t ∈ (fileLines latticeFile).tail, 4 ≤ t.count ',' := by decide +kernel

/-- Not vacuous: a run from the file of the lattice. -/
theorem lattice_file_run (flt : ℝ → ℝ) : ∃ F, ∀ fuel' fuel, F ≤ fuel' → F ≤ fuel → ∃ R exo, meshFromSeedsFile latticeParse latticeParseNat flt true true latticeFile fuel' fuel = some (some R) ∧ R.seeds = latticeSeeds ∧ R.exo = some exo ∧
    ExoOf flt latticeSeeds R.mesh exo := by
  obtain ⟨l, g1, g2⟩ := (C16_seed_file id latticeParseNat latticeFile).1 lattice_lines
  rw [lattice_text] at g1
  obtain rfl := Option.some.inj g1
  have hpar : ∀ a : ℤ, -1 ≤ a ∧ a ≤ 2 → latticeParse (latticeTok a) = a := fun a ⟨h1, h2⟩ => by
    interval_cases a <;> simp [latticeTok, latticeParse]
  have hxs : latticeSeeds = (List.map (fun s : Seed Tok => (⟨latticeParse s.x, latticeParse s.y, latticeParse s.z, latticeParse s.sizing, s.region⟩ : Seed ℝ))
      (latticePoints.map fun p => ⟨latticeTok p.1, latticeTok p.2.1, latticeTok p.2.2, ['.', '5'], if latticeInner p then 1 else 0⟩)).map recOfSeed := by
    rw [List.map_map, List.map_map]
    unfold latticeSeeds
    refine List.map_congr_left fun p hp => ?_
    obtain ⟨h0, h1, h2⟩ := mem_lattice.1 (show (p.1, p.2.1, p.2.2) ∈ latticePoints from hp)
    simp only [Function.comp, recOfSeed, latticeSeed, hpar _ h0, hpar _ h1, hpar _ h2]
    refine SeedRec.mk.injEq .. |>.mpr ⟨?_, ?_, rfl⟩
    · funext d
      unfold mkSphere
      rcases d with _ | _ | _ | _ | d <;> simp
    · simp [latticeParse]
  obtain ⟨c1, c2, c3⟩ := grid_conditions lattice_grid lattice_apart lattice_bound
  obtain ⟨F, hF⟩ := C107_seeds_file latticeParse latticeParseNat flt true true latticeFile _ lattice_lines (seedOnLine_map g2) latticeSeeds hxs (fun s hs => by
    unfold latticeSeeds at hs
    obtain ⟨p, -, rfl⟩ := List.mem_map.1 hs
    simp [latticeSeed]) c1 c2 (few_nearest (by rw [lattice_length]; omega)) lattice_some c3
  refine ⟨F, fun fuel' fuel h1 h2 => ?_⟩
  obtain ⟨mesh, -, e2, e3⟩ := hF fuel' fuel h1 h2
  obtain ⟨R, f1, f2, f3, f4⟩ := e3 fun _ => lattice_fits e2
  obtain ⟨exo, k1, k2⟩ : ∃ file, R.exo = some file ∧ ExoOf flt R.seeds R.mesh file := f4.exo
  exact ⟨R, exo, f1, f3, k1, f3 ▸ k2⟩

end VoroCrust
