import Verif.Props.FrontStops
import Verif.Props.InteriorRun

/-! C111 for the whole interior stage. -/

namespace VoroCrust

/-- The fence depends on positions and regions only. -/
theorem Fenced.congr {F : Features} {L : ℝ} {seeds seeds' : List SeedRec} {D : Set (Nat → ℝ)} (h : Fenced F L seeds D) (hl : seeds'.length = seeds.length)
    (hx : ∀ (i : Nat) (a b : SeedRec), seeds[i]? = some a → seeds'[i]? = some b → b.x = a.x ∧ b.region = a.region) : Fenced F L seeds' D := by
  refine ⟨h.bounded, fun b hb h0 => ?_, fun p hp hc => ?_⟩
  · obtain ⟨i, hi⟩ := List.getElem?_of_mem hb
    have hi' : i < seeds.length := by rw [← hl]; exact (List.getElem?_eq_some_iff.1 hi).1
    obtain ⟨e1, e2⟩ := hx i _ b (List.getElem?_eq_getElem hi') hi
    rw [e1]
    exact h.inside _ (List.getElem_mem hi') (by rw [← e2]; exact h0)
  · obtain ⟨q, hq, q1, q2⟩ := h.wall p hp hc
    obtain ⟨i, hi⟩ := List.getElem?_of_mem hq
    have hi' : i < seeds'.length := by rw [hl]; exact (List.getElem?_eq_some_iff.1 hi).1
    obtain ⟨e1, e2⟩ := hx i q _ hi (List.getElem?_eq_getElem hi')
    exact ⟨seeds'[i], List.getElem_mem hi', by rw [e2]; exact q1, fun x hx => by rw [e1]; exact q2 x hx⟩

/-- **C111**: the interior stage of a run without imposed seeds ends.  The seeds with those added on the sharp edges have to be fenced and no smaller than `r`. -/
theorem C111_interior_ends {F : Features} {L rmax : ℝ} (hF : F.OK L) (hsz : SizingOK F) (hc : F.corners.length ≤ F.surface.length) (hz : F.sizing.length ≤ F.surface.length) (hE : EdgesOK F) {r : ℝ} (hr : 0 < r)
    (hmax : r ≤ rmax) (hsp : ∀ q ∈ F.sizing, r ≤ q.size) {vs : Nat → Bool → List (Nat → ℝ)} {ys : Nat → Bool → List (ℝ × ℝ)} (hd : AllDrawsOK F vs ys) (seeds : List SeedRec) (h0 : ∀ a ∈ seeds, 0 ≤ a.size)
    (hin : ∃ a ∈ seeds, a.region ≠ 0) {D : Set (Nat → ℝ)} (hD : ∀ N crit, (∀ fuel, N ≤ fuel → ensureDelaunay seeds F L fuel vs ys = some crit) → (∀ a ∈ crit, r ≤ a.size) ∧ Fenced F L crit D) :
    ∃ K, ∀ (ρ : ℝ → ℝ), Monotone ρ → (∀ n : Nat, ρ (n : ℝ) = n) → ∀ (threads : Nat) (generate : Bool) (X : RunDraws), X.vs = vs → X.ys = ys → (∀ inp ∈ X.inputs, inp.OK) → (∀ i, 0 ≤ X.us i ∧ X.us i ≤ 1) →
      K ≤ X.inputs.length → ∃ N, ∀ lf, N ≤ lf → ∃ out, interiorRun ρ F L rmax lf threads none generate X seeds = some (some out) ∧ ∀ b ∈ out.seeds, (b.region ≠ 0 → b.x ∈ D) ∧ r ≤ b.size := by
  have hne : seeds ≠ [] := by rintro rfl; simp at hin
  obtain ⟨crit, N1, e1, g1, -, -⟩ := edgeStage_grows hF hc hz hne h0 hE hd
  obtain ⟨c1, c2⟩ := hD N1 crit e1
  have hin' : ∃ a ∈ crit, a.region ≠ 0 := by
    obtain ⟨a, ha, ha0⟩ := hin
    obtain ⟨i, hi⟩ := List.getElem?_of_mem ha
    obtain ⟨b, hb, -, b2, -⟩ := g1.keep i a hi
    exact ⟨b, List.mem_of_getElem? hb, by rw [b2]; exact ha0⟩
  obtain ⟨K, hK⟩ := C111_seeding_ends F hF hsz hc hz hr hmax hsp crit c1 hin' c2
  refine ⟨K, fun ρ hmono hρ threads generate X hv hy hi hu hlen => ?_⟩
  obtain ⟨out, N2, e2, b1, -⟩ := hK ρ hmono hρ threads X.inputs hi hlen
  obtain ⟨N3, h3⟩ := C98_interior_run_partial hmono hρ hF hsz (hr.le.trans hmax) hc hz hE threads none generate X (by rw [hv, hy]; exact hd) hi hu seeds h0 hin (by intro pts hp; simp at hp)
  refine ⟨max N1 (max N2 N3), fun lf hf => ?_⟩
  have hnn := (h3 lf (by omega)).1 rfl
  have key : interiorRun ρ F L rmax lf threads none generate X seeds = (finishSeeds ρ seeds.length crit.length crit.length none generate X.us out).map some := by
    unfold interiorRun
    rw [hv, hy]
    simp only [e1 lf (by omega), imposeStage, e2 lf (by omega)]
  rw [key] at hnn ⊢
  cases ef : finishSeeds ρ seeds.length crit.length crit.length none generate X.us out with
  | none => rw [ef] at hnn; simp at hnn
  | some o =>
    refine ⟨o, rfl, ?_⟩
    have : o.seeds = out := by
      unfold finishSeeds at ef
      simp only at ef
      split at ef
      · split at ef
        · simp at ef
        · exact (Option.some.inj ef) ▸ rfl
      · exact (Option.some.inj ef) ▸ rfl
    rw [this]
    exact b1

/-- **C111** for surfaces without sharp edges: the fence is that of the surface seeds. -/
theorem C111_smooth_ends {F : Features} {L rmax : ℝ} (hF : F.OK L) (hsz : SizingOK F) (hc : F.corners.length ≤ F.surface.length) (hz : F.sizing.length ≤ F.surface.length) (hE : F.edges = []) {r : ℝ} (hr : 0 < r)
    (hmax : r ≤ rmax) (hsp : ∀ q ∈ F.sizing, r ≤ q.size) (seeds : List SeedRec) (h0 : ∀ a ∈ seeds, r ≤ a.size) (hin : ∃ a ∈ seeds, a.region ≠ 0) {D : Set (Nat → ℝ)} (hD : Fenced F L seeds D) :
    ∃ K, ∀ (ρ : ℝ → ℝ), Monotone ρ → (∀ n : Nat, ρ (n : ℝ) = n) → ∀ (threads : Nat) (generate : Bool) (X : RunDraws), (∀ inp ∈ X.inputs, inp.OK) → (∀ i, 0 ≤ X.us i ∧ X.us i ≤ 1) →
      K ≤ X.inputs.length → ∃ N, ∀ lf, N ≤ lf → ∃ out, interiorRun ρ F L rmax lf threads none generate X seeds = some (some out) ∧ ∀ b ∈ out.seeds, (b.region ≠ 0 → b.x ∈ D) ∧ r ≤ b.size := by
  have hEd : EdgesOK F := by intro i s hs; rw [hE] at hs; simp at hs
  have hdr : AllDrawsOK F (fun _ _ => []) fun _ _ => [] := by intro i s hs; rw [hE] at hs; simp at hs
  have hne : seeds ≠ [] := by rintro rfl; simp at hin
  have hpos : ∀ a ∈ seeds, 0 ≤ a.size := fun a ha => hr.le.trans (h0 a ha)
  obtain ⟨K, hK⟩ := C111_interior_ends hF hsz hc hz hEd hr hmax hsp hdr seeds hpos hin (D := D) fun N crit hN => by
    obtain ⟨xs, os, N', a1, a2, a3, a4, -⟩ := C87_edge_seeds_partial seeds F L hF hc hz hne hpos hEd _ _ hdr
    rw [hE] at a4
    have eo : os = [] := List.length_eq_zero_iff.1 a4
    subst eo
    obtain rfl : crit = xs := by
      have h1 := (hN (max N N') (le_max_left _ _)).symm.trans (a1 _ (le_max_right _ _))
      simpa using h1
    refine ⟨fun b hb => ?_, hD.congr a2 fun i a b ha hb => ⟨(a3 i a b ha hb).1, (a3 i a b ha hb).2.1⟩⟩
    obtain ⟨i, hi⟩ := List.getElem?_of_mem hb
    have hi' : i < seeds.length := by rw [← a2]; exact (List.getElem?_eq_some_iff.1 hi).1
    obtain ⟨-, -, -, c, hc', hcb⟩ := a3 i _ b (List.getElem?_eq_getElem hi') hi
    have := h0 c hc'
    have := mul_nonneg hF.L0 (euclid_nonneg 3 seeds[i].x c.x)
    linarith
  refine ⟨K, fun ρ hmono hρ threads generate X hi hu hlen => ?_⟩
  obtain ⟨N, hN⟩ := hK ρ hmono hρ threads generate { X with vs := fun _ _ => [], ys := fun _ _ => [] } rfl rfl hi hu hlen
  refine ⟨N, fun lf hf => ?_⟩
  have e : interiorRun ρ F L rmax lf threads none generate X seeds = interiorRun ρ F L rmax lf threads none generate { X with vs := fun _ _ => [], ys := fun _ _ => [] } seeds := by
    unfold interiorRun
    simp only [ensureDelaunay, hE, edgeSeeds, imposeStage]
  rw [e]
  exact hN lf hf

end VoroCrust
