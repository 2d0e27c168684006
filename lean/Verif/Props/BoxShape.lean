import Verif.Props.TrimShape

/-! # The initial box is a polytope -/

namespace VoroCrust

/-- The outward normals of the walls of the box. -/
def boxNormal (k d : Nat) : ℝ :=
  if k = 0 then (if d = 0 then 1 else 0) else if k = 1 then (if d = 1 then 1 else 0) else if k = 2 then (if d = 0 then -1 else 0) else if k = 3 then (if d = 1 then -1 else 0)
  else if k = 4 then (if d = 2 then 1 else 0) else (if d = 2 then -1 else 0)

/-- The plane of a wall of the box with half edge `r` round `x`. -/
def boxPlane (x : Nat → ℝ) (r : ℝ) (k : Nat) : (Nat → ℝ) × (Nat → ℝ) := (fun d => x d + r * boxNormal k d, boxNormal k)

theorem boxWall_lt : ∀ c, c < 8 → ∀ i, i < 3 → ∃ k, (boxWall.getD c [])[i]? = some k ∧ k < 6 := by decide

theorem initPoly_wall (x : Nat → ℝ) (r : ℝ) {c i : Nat} (hc : c < 8) (hi : i < 3) : ∃ k, (initPoly x r).wall c i = some (Wall.box k) ∧ k < 6 ∧ (boxWall.getD c [])[i]? = some k := by
  obtain ⟨k, h1, h2⟩ := boxWall_lt c hc i hi
  exact ⟨k, by unfold initPoly; simp only [h1, Option.map_some], h2, h1⟩

theorem initPoly_wall_inj (x : Nat → ℝ) (r : ℝ) {c i d j : Nat} : (initPoly x r).wall c i = (initPoly x r).wall d j ↔ (boxWall.getD c [])[i]? = (boxWall.getD d [])[j]? := by
  unfold initPoly
  simp only
  constructor
  · intro h
    exact Option.map_injective (fun a b e => by injection e) h
  · intro h; rw [h]

set_option synthInstance.maxHeartbeats 200000 in
set_option synthInstance.maxSize 1000 in
theorem box_coh : ∀ c, c < 8 → ∀ i, i < 3 → ∀ d, d < 8 → (boxNbr.getD c [])[i]? = some d →
    ∃ j, j < 3 ∧ (boxNbr.getD d [])[j]? = some c ∧ (boxWall.getD d [])[j]? = (boxWall.getD c [])[(i + 2) % 3]? ∧ (boxWall.getD d [])[(j + 2) % 3]? = (boxWall.getD c [])[i]? := by decide

theorem box_diff : ∀ c, c < 8 → ∀ i, i < 3 → ∀ j, j < 3 → (boxWall.getD c [])[i]? = (boxWall.getD c [])[j]? → i = j := by decide

theorem box_inj : ∀ c, c < 8 → ∀ d, d < 8 → (∀ i, i < 3 → ∃ j, j < 3 ∧ (boxWall.getD c [])[i]? = (boxWall.getD d [])[j]?) → c = d := by decide

/-- The wall of index `k` is opposite to or contains the corner. -/
theorem box_side (x : Nat → ℝ) (r : ℝ) (hr : 0 < r) {c k : Nat} (hc : c < 8) (hk : k < 6) :
    (side (boxPlane x r k).1 (boxPlane x r k).2 (fun d => x d + boxSign c d * r) < 0 ∧ ∀ i, i < 3 → (boxWall.getD c [])[i]? ≠ some k) ∨
      (side (boxPlane x r k).1 (boxPlane x r k).2 (fun d => x d + boxSign c d * r) = 0 ∧ ∃ j, j < 3 ∧ (boxWall.getD c [])[j]? = some k) := by
  have dec : (∀ i, i < 3 → (boxWall.getD c [])[i]? ≠ some k) ∨ ∃ j, j < 3 ∧ (boxWall.getD c [])[j]? = some k := by
    by_cases h : ∃ j, j < 3 ∧ (boxWall.getD c [])[j]? = some k
    · exact Or.inr h
    · left
      intro i hi e
      exact h ⟨i, hi, e⟩
  rcases dec with h | h
  · left
    refine ⟨?_, h⟩
    interval_cases c <;> interval_cases k <;> first | (exfalso; revert h; decide) | (unfold side boxPlane boxNormal boxSign; norm_num; linarith)
  · right
    refine ⟨?_, h⟩
    interval_cases c <;> interval_cases k <;> first | (exfalso; revert h; decide) | (unfold side boxPlane boxNormal boxSign; norm_num)

/-- An even set of edges of the box is given by the edges of one wall and one edge of the opposite wall. -/
theorem box_fill_alg : ∀ a4 a3 a5 a1 m43 m53 m41 m51 b4 b3 b5 b1 : ZMod 2, a4 + m43 + a3 = 0 → a3 + a5 + m53 = 0 → a4 + a1 + m41 = 0 → a5 + a1 + m51 = 0 → b4 + b3 + m43 = 0 → b5 + b3 + m53 = 0 → b4 + b1 + m41 = 0 → b5 + b1 + m51 = 0 →
    m43 = a4 + a3 ∧ m53 = a5 + a3 ∧ m41 = a4 + a1 ∧ m51 = a5 + a1 ∧ b3 = b4 + a4 + a3 ∧ b5 = b4 + a4 + a5 ∧ b1 = b4 + a4 + a1 := by
  intro a4 a3 a5 a1 m43 m53 m41 m51 b4 b3 b5 b1 h0 h1 h2 h3 h4 h5 h6 h7
  have mid : ∀ x y z : ZMod 2, x + z + y = 0 → z = x + y := by decide
  have last : ∀ x y z : ZMod 2, x + y + z = 0 → z = x + y := by decide
  have e0 := mid _ _ _ h0
  have e1 := last _ _ _ h1
  have e2 := last _ _ _ h2
  have e3 := last _ _ _ h3
  subst e0 e1 e2 e3
  have f : ∀ p q x y : ZMod 2, p + q + (x + y) = 0 → q = p + x + y := by decide
  have f5 : ∀ p q x y : ZMod 2, q + p + (y + x) = 0 → q = p + x + y := by decide
  have g3 := f _ _ _ _ h4
  have g1 := f _ _ _ _ h6
  subst g3 g1
  have k5 : ∀ b5 b4 a4 a3 a5 : ZMod 2, b5 + (b4 + a4 + a3) + (a3 + a5) = 0 → b5 = b4 + a4 + a5 := by decide
  exact ⟨rfl, add_comm _ _, rfl, rfl, rfl, k5 _ _ _ _ _ h5, rfl⟩

open Classical

/-- The edges of the box. -/
theorem box_fill (x : Nat → ℝ) (r : ℝ) : (initPoly x r).Fill := by
  intro f hf hev
  have live : ∀ c, c < 8 → (initPoly x r).Live c := fun c hc => initPoly_live.2 hc
  have ed : ∀ c i d j, c < 8 → i < 3 → j < 3 → (boxNbr.getD c [])[i]? = some d → (boxNbr.getD d [])[j]? = some c → f c i = f d j := fun c i d j hc hi hj e1 e2 => hf c i d j hi hj (live c hc) e1 e2
  have q01 := ed 0 0 1 2 (by omega) (by omega) (by omega) rfl rfl
  have q02 := ed 0 1 2 1 (by omega) (by omega) (by omega) rfl rfl
  have q04 := ed 0 2 4 0 (by omega) (by omega) (by omega) rfl rfl
  have q15 := ed 1 0 5 2 (by omega) (by omega) (by omega) rfl rfl
  have q13 := ed 1 1 3 1 (by omega) (by omega) (by omega) rfl rfl
  have q26 := ed 2 0 6 2 (by omega) (by omega) (by omega) rfl rfl
  have q23 := ed 2 2 3 0 (by omega) (by omega) (by omega) rfl rfl
  have q37 := ed 3 2 7 0 (by omega) (by omega) (by omega) rfl rfl
  have q46 := ed 4 1 6 1 (by omega) (by omega) (by omega) rfl rfl
  have q45 := ed 4 2 5 0 (by omega) (by omega) (by omega) rfl rfl
  have q57 := ed 5 1 7 1 (by omega) (by omega) (by omega) rfl rfl
  have q67 := ed 6 0 7 2 (by omega) (by omega) (by omega) rfl rfl
  have v := fun c (hc : c < 8) => hev c (live c hc)
  have par : ∀ a b c : ZMod 2, a + b + c = 0 → b + c + a = 0 ∧ c + a + b = 0 ∧ b + a + c = 0 ∧ a + c + b = 0 ∧ c + b + a = 0 := by decide
  obtain ⟨m43, m53, m41, m51, g3, g5, g1⟩ := box_fill_alg (f 0 1) (f 0 0) (f 1 1) (f 2 2) (f 0 2) (f 1 0) (f 2 0) (f 3 2) (f 4 1) (f 4 2) (f 5 1) (f 6 0)
    ((par _ _ _ (v 0 (by omega))).1) (by have := v 1 (by omega); rw [← q01] at this; exact (par _ _ _ this).2.2.2.2) (by have := v 2 (by omega); rw [← q02] at this; exact (par _ _ _ this).1)
    (by have := v 3 (by omega); rw [← q23, ← q13] at this; exact (par _ _ _ this).2.2.1) (by have := v 4 (by omega); rw [← q04] at this; exact (par _ _ _ this).1)
    (by have := v 5 (by omega); rw [← q45, ← q15] at this; exact (par _ _ _ this).2.2.1) (by have := v 6 (by omega); rw [← q46, ← q26] at this; exact (par _ _ _ this).2.2.1)
    (by have := v 7 (by omega); rw [← q37, ← q57, ← q67] at this; exact (par _ _ _ this).1)
  refine ⟨fun w => if w = some (Wall.box 1) then f 2 2 else if w = some (Wall.box 2) then f 4 1 + f 0 1 else if w = some (Wall.box 3) then f 0 0 else if w = some (Wall.box 4) then f 0 1 else
    if w = some (Wall.box 5) then f 1 1 else 0, fun c i hi hc => ?_⟩
  have hc' := initPoly_live.1 hc
  have z1 : ∀ a : ZMod 2, a = a + 0 := by decide
  have z2 : ∀ a : ZMod 2, a = 0 + a := by decide
  have z3 : ∀ a b : ZMod 2, a = a + b + b := by decide
  have z4 : ∀ a b : ZMod 2, a = b + (a + b) := by decide
  have z5 : ∀ a b c : ZMod 2, a + b + c = c + (a + b) := by decide
  have z6 : ∀ a b : ZMod 2, a + b = b + a := by decide
  interval_cases c <;> interval_cases i <;> simp only [initPoly, boxWall, List.getD_cons_zero, List.getD_cons_succ, List.getElem?_cons_zero, List.getElem?_cons_succ, Option.map_some, Option.some.injEq, Wall.box.injEq, Nat.reduceAdd, Nat.reduceMod, reduceIte, ← q01, ← q02, ← q04, ← q15, ← q13, ← q26, ← q23, ← q37, ← q46, ← q45, ← q57, ← q67, Nat.reduceEqDiff, OfNat.ofNat_ne_zero, OfNat.zero_ne_ofNat, zero_ne_one, one_ne_zero] <;> first | assumption | exact z1 _ | exact z2 _ | exact z3 _ _ | exact z4 _ _ | exact m43.trans (z6 _ _) | exact m53.trans (z6 _ _) | exact m41.trans (z6 _ _) | exact m51.trans (z6 _ _) | exact g3.trans (z5 _ _ _) | exact g5.trans (z5 _ _ _) | exact g1.trans (z5 _ _ _)

/-- **The box is a polytope.** -/
theorem initPoly_shape {pl : Option Wall → (Nat → ℝ) × (Nat → ℝ)} {x : Nat → ℝ} {r : ℝ} (hr : 0 < r) (hpl : ∀ k, k < 6 → pl (some (Wall.box k)) = boxPlane x r k) : (initPoly x r).Shape pl := by
  have lv : ∀ {c}, (initPoly x r).Live c → c < 8 := fun h => initPoly_live.1 h
  have hp : ∀ {c v}, (initPoly x r).pos c = some v → c < 8 ∧ v = fun d => x d + boxSign c d * r := fun {c v} h => by
    have hc := lv (live_of_pos h)
    unfold initPoly at h
    simp only [if_pos hc, Option.some.injEq] at h
    exact ⟨hc, h.symm⟩
  refine ⟨initPoly_wf x r, fun c i d hi hc hn => ?_, fun c v i hi hv => ?_, fun c i j hc hi hj e => ?_, fun c v b i hv hb hi => ?_, fun c d hc hd hw => ?_, box_fill x r⟩
  · obtain ⟨d', e1, e2, -⟩ := (initPoly_wf x r).out c i hi hc
    obtain rfl := Option.some.inj (hn.symm.trans e1)
    obtain ⟨j, hj, q1, q2, q3⟩ := box_coh c (lv hc) i hi d (lv e2) hn
    exact ⟨j, hj, q1, (initPoly_wall_inj x r).2 q2, (initPoly_wall_inj x r).2 q3⟩
  · obtain ⟨hc, rfl⟩ := hp hv
    obtain ⟨k, e1, e2, e3⟩ := initPoly_wall x r hc hi
    unfold hgt
    rw [e1, hpl k e2]
    rcases box_side x r hr hc e2 with ⟨-, g⟩ | ⟨g, -⟩
    · exact absurd e3 (g i hi)
    · exact g
  · exact box_diff c (lv hc) i hi j hj ((initPoly_wall_inj x r).1 e)
  · obtain ⟨hc, rfl⟩ := hp hv
    obtain ⟨k, e1, e2, e3⟩ := initPoly_wall x r (lv hb) hi
    rcases box_side x r hr hc e2 with ⟨g, -⟩ | ⟨-, j, hj, g⟩
    · left
      unfold hgt
      rw [e1, hpl k e2]
      exact g
    · exact Or.inr ⟨j, hj, (initPoly_wall_inj x r).2 (e3.trans g.symm)⟩
  · exact box_inj c (lv hc) d (lv hd) fun i hi => by
      obtain ⟨j, hj, e⟩ := hw i hi
      exact ⟨j, hj, (initPoly_wall_inj x r).1 e⟩

end VoroCrust
