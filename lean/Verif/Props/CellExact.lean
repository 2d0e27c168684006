import Verif.Props.CutExact
import Verif.Props.CellRun

/-!
# The cell of a seed in general position

When no point on three of the planes involved lies on or up to `1e-10` beyond a fourth, the loop over the corners ends and gives exactly the part of the box that belongs to the seed, and the cell that is
returned is exactly the Voronoi cell.
-/

namespace VoroCrust

open Classical

/-- The bisector with `y`. -/
noncomputable def bisector (x y : Nat → ℝ) : (Nat → ℝ) × (Nat → ℝ) := (midPoint x y, bisectorNormal x y)

/-- The planes of the walls of a cell. -/
noncomputable def cellPl (x : Nat → ℝ) (B : ℝ) (loc : List (Nat → ℝ)) : Option Wall → (Nat → ℝ) × (Nat → ℝ)
  | some (Wall.box k) => boxPlane x B k
  | some (Wall.pt j) => bisector x (loc.getD j x)
  | none => bisector x x

/-- The walls a cell can have. -/
def LocWall (x : Nat → ℝ) (loc : List (Nat → ℝ)) (w : Wall) : Prop := (∃ k, k < 6 ∧ w = Wall.box k) ∨ ∃ j y, w = Wall.pt j ∧ loc[j]? = some y ∧ euclid 3 y x ≠ 0

/-- No point on three walls is on or close to a fourth. -/
def LocGeneral (x : Nat → ℝ) (B : ℝ) (loc : List (Nat → ℝ)) : Prop :=
  ∀ a b c j y v, LocWall x loc a → LocWall x loc b → LocWall x loc c → a ≠ b → a ≠ c → b ≠ c → loc[j]? = some y → euclid 3 y x ≠ 0 → Wall.pt j ≠ a → Wall.pt j ≠ b → Wall.pt j ≠ c →
    hgt (cellPl x B loc) (some a) v = 0 → hgt (cellPl x B loc) (some b) v = 0 → hgt (cellPl x B loc) (some c) v = 0 → side (midPoint x y) (bisectorNormal x y) v < 0 ∨ side (midPoint x y) (bisectorNormal x y) v > 1e-10

variable {x : Nat → ℝ} {B : ℝ} {loc : List (Nat → ℝ)}

theorem cellPl_pt {j : Nat} {y : Nat → ℝ} (h : loc[j]? = some y) : cellPl x B loc (some (Wall.pt j)) = (midPoint x y, bisectorNormal x y) := by
  unfold cellPl bisector
  simp only [List.getD_eq_getElem?_getD, h, Option.getD_some]

/-- The state of the loop. -/
structure CellState (x : Nat → ℝ) (B : ℝ) (loc : List (Nat → ℝ)) (P : Poly) : Prop where
  shape : P.Shape (cellPl x B loc)
  walls : P.Walls (LocWall x loc)
  left : ∃ c, P.Live c

theorem initPoly_locwalls (x : Nat → ℝ) (B : ℝ) (loc : List (Nat → ℝ)) : (initPoly x B).Walls (LocWall x loc) := by
  intro c i w h
  unfold initPoly at h
  simp only [Option.map_eq_some_iff] at h
  obtain ⟨k, hk, rfl⟩ := h
  refine Or.inl ⟨k, ?_, rfl⟩
  by_cases hc : c < 8
  · have hi : i < 3 := by
      have hl : (boxWall.getD c []).length = 3 := by interval_cases c <;> rfl
      have := (List.getElem?_eq_some_iff.1 hk).1
      omega
    obtain ⟨k', e1, e2⟩ := boxWall_lt c hc i hi
    rw [e1] at hk
    exact Option.some.inj hk ▸ e2
  · have e : boxWall.getD c [] = [] := by
      rw [List.getD_eq_getElem?_getD, List.getElem?_eq_none (l := boxWall) (by show 8 ≤ c; omega)]; rfl
    rw [e] at hk
    simp at hk

theorem CellState.start (hB : 0 < B) : CellState x B loc (initPoly x B) :=
  ⟨initPoly_shape hB fun _ _ => rfl, initPoly_locwalls x B loc, ⟨0, initPoly_live.2 (by omega)⟩⟩

/-- The seed itself is inside all walls. -/
theorem seed_inside (hB : 0 < B) {w : Wall} (hw : LocWall x loc w) : hgt (cellPl x B loc) (some w) x < 0 := by
  rcases hw with ⟨k, hk, rfl⟩ | ⟨j, y, rfl, e, hy⟩
  · unfold hgt cellPl boxPlane
    interval_cases k <;> simp [side, boxNormal] <;> linarith
  · unfold hgt
    rw [cellPl_pt e, side_bisector]
    have hpos : 0 < euclid 3 y x := lt_of_le_of_ne (euclid_nonneg 3 y x) (Ne.symm hy)
    have h0 : dotDiff x y x = 0 := by unfold dotDiff; ring
    rw [h0, dotDiff_self, sqrt_distSq3, distSq3_sq]
    have : (0 - euclid 3 y x ^ 2 / 2) / euclid 3 y x < 0 := div_neg_of_neg_of_pos (by have := pow_pos hpos 2; linarith) hpos
    exact this

theorem CellState.wall_loc {P : Poly} (h : CellState x B loc P) {c i : Nat} (hc : P.Live c) (hi : i < 3) : ∃ w, P.wall c i = some w ∧ LocWall x loc w := by
  obtain ⟨w, hw⟩ := Option.ne_none_iff_exists'.1 (h.shape.wf.wall c i hi hc)
  exact ⟨w, hw, h.walls c i w hw⟩

theorem CellState.solid_seed {P : Poly} (h : CellState x B loc P) (hB : 0 < B) : P.Solid x :=
  (h.shape.solid h.left x).2 fun c i hi hc => by
    obtain ⟨w, e, hw⟩ := h.wall_loc hc hi
    rw [e]
    exact (seed_inside hB hw).le

/-- A plane that is not a wall is clear of the corners. -/
theorem CellState.clear {P : Poly} (h : CellState x B loc P) (hg : LocGeneral x B loc) {j : Nat} {y : Nat → ℝ} (hj : loc[j]? = some y) (hy : euclid 3 y x ≠ 0) {c : Nat} {v : Nat → ℝ} (hv : P.pos c = some v)
    (hno : ∀ i, i < 3 → P.wall c i ≠ some (Wall.pt j)) : side (midPoint x y) (bisectorNormal x y) v < 0 ∨ side (midPoint x y) (bisectorNormal x y) v > 1e-10 := by
  have hc := live_of_pos hv
  obtain ⟨w0, e0, l0⟩ := h.wall_loc hc (i := 0) (by omega)
  obtain ⟨w1, e1, l1⟩ := h.wall_loc hc (i := 1) (by omega)
  obtain ⟨w2, e2, l2⟩ := h.wall_loc hc (i := 2) (by omega)
  have o0 := h.shape.on c v 0 (by omega) hv
  have o1 := h.shape.on c v 1 (by omega) hv
  have o2 := h.shape.on c v 2 (by omega) hv
  have n0 := hno 0 (by omega)
  have n1 := hno 1 (by omega)
  have n2 := hno 2 (by omega)
  have d01 : w0 ≠ w1 := fun q => absurd (h.shape.diff c 0 1 hc (by omega) (by omega) (by rw [e0, e1, q])) (by omega)
  have d02 : w0 ≠ w2 := fun q => absurd (h.shape.diff c 0 2 hc (by omega) (by omega) (by rw [e0, e2, q])) (by omega)
  have d12 : w1 ≠ w2 := fun q => absurd (h.shape.diff c 1 2 hc (by omega) (by omega) (by rw [e1, e2, q])) (by omega)
  rw [e0] at o0 n0
  rw [e1] at o1 n1
  rw [e2] at o2 n2
  exact hg w0 w1 w2 j y v l0 l1 l2 d01 d02 d12 hj hy (fun q => n0 (by rw [q])) (fun q => n1 (by rw [q])) (fun q => n2 (by rw [q])) o0 o1 o2

/-- One corner: nothing happens, or the polytope is cut with the bisector of a seed at another place that had a corner beyond. -/
theorem cellStep_state (hB : 0 < B) (hg : LocGeneral x B loc) {P : Poly} (h : CellState x B loc P) (c : Nat) :
    ∃ R, cellStep x loc c P = some R ∧ CellState x B loc R ∧
      (R = P ∨ ∃ (j : Nat) (y : Nat → ℝ), loc[j]? = some y ∧ euclid 3 y x ≠ 0 ∧ (∃ v, P.pos c = some v ∧ side (midPoint x y) (bisectorNormal x y) v > 1e-10) ∧ (∀ z, R.Solid z ↔ P.Solid z ∧ side (midPoint x y) (bisectorNormal x y) z ≤ 0)) := by
  unfold cellStep
  cases hp : P.pos c with
  | none => exact ⟨P, rfl, h, Or.inl rfl⟩
  | some v =>
    simp only
    cases hb : bestSeed x v loc 0 none with
    | none => exact ⟨P, rfl, h, Or.inl rfl⟩
    | some b =>
      obtain ⟨l, j, y⟩ := b
      simp only
      by_cases h1 : l > 2
      · rw [if_pos h1]; exact ⟨P, rfl, h, Or.inl rfl⟩
      rw [if_neg h1]
      by_cases h2 : side (midPoint x y) (bisectorNormal x y) v ≤ 1e-10
      · rw [if_pos h2]; exact ⟨P, rfl, h, Or.inl rfl⟩
      rw [if_neg h2]
      have hj := bestSeed_index loc loc 0 none (by simp) (by simp) l j y hb
      have hy : euclid 3 y x ≠ 0 := fun h0 => by
        have hD := (((bestSeed_spec loc 0 none).2 l j y hb).1.resolve_left (by simp)).2.1
        have hc := dotDiff_cauchy x y v
        rw [dotDiff_self, distSq3_sq, h0] at hc
        have : (0 : ℝ) < dotDiff x y v := lt_of_lt_of_le (by norm_num) hD
        have := pow_pos this 2
        linarith
      have hs := not_le.1 h2
      have hpl := cellPl_pt (x := x) (B := B) hj
      have hcl : P.Clear (midPoint x y) (bisectorNormal x y) := fun a u hu =>
        (h.clear hg hj hy hu fun i hi => h.shape.fresh hpl ⟨v, hp, hs⟩ (live_of_pos hu) hi).symm
      obtain ⟨R, ed, far, e, g⟩ := trimVertex_trimmed h.shape j (c := c) (xo := midPoint x y) (n := bisectorNormal x y) ⟨v, hp, hs⟩
      refine ⟨R, e, ⟨g.shape h.shape hcl hpl, Poly.Walls.trimVertex (Or.inr ⟨j, y, rfl, hj, hy⟩) _ _ _ _ _ h.walls e, g.nonempty (h.solid_seed hB) ?_⟩, Or.inr ⟨j, y, hj, hy, ⟨v, rfl, hs⟩, g.solid h.shape hcl hpl⟩⟩
      have := (seed_inside (B := B) hB (Or.inr ⟨j, y, rfl, hj, hy⟩)).le
      unfold hgt at this
      rw [hpl] at this
      exact this.trans (by norm_num)

/-- The examined seeds whose bisectors a corner is beyond. -/
noncomputable def openSeeds (x : Nat → ℝ) (loc : List (Nat → ℝ)) (P : Poly) : Finset Nat :=
  (Finset.range loc.length).filter fun j => ∃ y, loc[j]? = some y ∧ ∃ c v, P.pos c = some v ∧ side (midPoint x y) (bisectorNormal x y) v > 1e-10

/-- **The loop over the corners ends.** -/
theorem cellLoop_ends (hB : 0 < B) (hg : LocGeneral x B loc) (b : Nat) : ∀ (m : Nat) (c : Nat) (P : Poly), CellState x B loc P → (openSeeds x loc P).card ≤ b → P.num - c ≤ m →
    ∃ F, ∀ f, F ≤ f → ∃ R, cellLoop x loc f c P = some (some R) := by
  induction b using Nat.strong_induction_on with
  | _ b ihb =>
    intro m
    induction m with
    | zero =>
      intro c P _ _ hm
      refine ⟨1, fun f hf => ⟨P, ?_⟩⟩
      obtain ⟨f, rfl⟩ := Nat.exists_eq_add_of_le' hf
      unfold cellLoop
      rw [if_neg (by omega)]
    | succ m ihm =>
      intro c P h hb hm
      by_cases hc : c < P.num
      · obtain ⟨R, e, hR, hcase⟩ := cellStep_state hB hg h c
        have key : ∃ F, ∀ f, F ≤ f → ∃ Q, cellLoop x loc f (c + 1) R = some (some Q) := by
          rcases hcase with rfl | ⟨j, y, hj, hy, ⟨v, hv, hs⟩, hsol⟩
          · exact ihm (c + 1) R h hb (by omega)
          · have hlt : (openSeeds x loc R).card < (openSeeds x loc P).card := by
              refine Finset.card_lt_card ⟨fun k hk => ?_, fun hsub => ?_⟩
              · unfold openSeeds at hk ⊢
                rw [Finset.mem_filter] at hk ⊢
                obtain ⟨h1, u, h2, a, w, h3, h4⟩ := hk
                refine ⟨h1, u, h2, ?_⟩
                by_contra hno
                push Not at hno
                have hin : R.Solid w := ⟨w, subset_convexHull ℝ _ ⟨a, h3⟩, fun _ _ => rfl⟩
                have := ((hsol w).1 hin).1.le hno
                linarith
              · have hmem : j ∈ openSeeds x loc P := by
                  unfold openSeeds
                  rw [Finset.mem_filter, Finset.mem_range]
                  exact ⟨(List.getElem?_eq_some_iff.1 hj).1, y, hj, c, v, hv, hs⟩
                have := hsub hmem
                unfold openSeeds at this
                rw [Finset.mem_filter] at this
                obtain ⟨-, u, h2, a, w, h3, h4⟩ := this
                obtain rfl := Option.some.inj (hj.symm.trans h2)
                have hin : R.Solid w := ⟨w, subset_convexHull ℝ _ ⟨a, h3⟩, fun _ _ => rfl⟩
                have := ((hsol w).1 hin).2
                norm_num at h4 this
                linarith
            exact ihb _ (lt_of_lt_of_le hlt hb) (R.num - (c + 1)) (c + 1) R hR (le_refl _) (le_refl _)
        obtain ⟨F, hF⟩ := key
        refine ⟨F + 1, fun f hf => ?_⟩
        obtain ⟨f, rfl⟩ := Nat.exists_eq_add_of_le' (show 1 ≤ f by omega)
        obtain ⟨Q, hQ⟩ := hF f (by omega)
        refine ⟨Q, ?_⟩
        unfold cellLoop
        rw [if_pos hc, e]
        exact hQ
      · refine ⟨1, fun f hf => ⟨P, ?_⟩⟩
        obtain ⟨f, rfl⟩ := Nat.exists_eq_add_of_le' hf
        unfold cellLoop
        rw [if_neg hc]

theorem cellLoop_state (hB : 0 < B) (hg : LocGeneral x B loc) (f : Nat) : ∀ {c : Nat} {P R : Poly}, CellState x B loc P → cellLoop x loc f c P = some (some R) → CellState x B loc R := by
  induction f with
  | zero => intro c P R _ e; simp [cellLoop] at e
  | succ f ih =>
    intro c P R h e
    unfold cellLoop at e
    by_cases hc : c < P.num
    · rw [if_pos hc] at e
      obtain ⟨Q, e1, h1, -⟩ := cellStep_state hB hg h c
      rw [e1] at e
      exact ih h1 e
    · rw [if_neg hc] at e
      obtain rfl := Option.some.inj (Option.some.inj e)
      exact h

end VoroCrust
