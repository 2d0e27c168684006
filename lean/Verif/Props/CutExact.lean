import Verif.Props.BoxShape

/-! # C101: cutting is exact -/

namespace VoroCrust

open Classical

variable {pl : Option Wall → (Nat → ℝ) × (Nat → ℝ)} {P0 R : Poly} {xo n : Nat → ℝ} {t : Nat} {ed : Nat → Nat × Nat} {far : Nat → Nat}

theorem side_convex (xo n p q : Nat → ℝ) {a b : ℝ} (h : a + b = 1) : side xo n (a • p + b • q) = a * side xo n p + b * side xo n q := by
  have hb : b = 1 - a := by linarith
  subst hb
  simp only [side, Pi.add_apply, Pi.smul_apply, smul_eq_mul]
  ring

theorem convex_le (xo n : Nat → ℝ) (B : ℝ) : Convex ℝ {v : Nat → ℝ | side xo n v ≤ B} := by
  intro p hp q hq a b ha hb hab
  simp only [Set.mem_ofPred_eq] at *
  rw [side_convex xo n p q hab]
  have h1 := mul_le_mul_of_nonneg_left hp ha
  have h2 := mul_le_mul_of_nonneg_left hq hb
  have : a * B + b * B = B := by rw [← add_mul, hab, one_mul]
  linarith

theorem convex_gt (xo n : Nat → ℝ) (B : ℝ) : Convex ℝ {v : Nat → ℝ | B < side xo n v} := by
  intro p hp q hq a b ha hb hab
  simp only [Set.mem_ofPred_eq] at *
  rw [side_convex xo n p q hab]
  have hB : a * B + b * B = B := by rw [← add_mul, hab, one_mul]
  rcases eq_or_lt_of_le ha with h | h
  · have hb1 : b = 1 := by linarith
    rw [← h, hb1]; linarith
  · have h1 := mul_lt_mul_of_pos_left hp h
    have h2 := mul_le_mul_of_nonneg_left hq.le hb
    linarith

theorem side_same {xo n p z : Nat → ℝ} (h : ∀ k, k < 3 → p k = z k) : side xo n p = side xo n z := by
  unfold side
  rw [h 0 (by omega), h 1 (by omega), h 2 (by omega)]

/-- The solid with the corners of a polytope; points are compared in their three coordinates. -/
def Poly.Solid (P : Poly) (z : Nat → ℝ) : Prop := ∃ p ∈ convexHull ℝ {v | ∃ c, P.pos c = some v}, ∀ k, k < 3 → p k = z k

theorem Poly.Solid.le {P : Poly} {z : Nat → ℝ} (h : P.Solid z) {xo n : Nat → ℝ} {B : ℝ} (hB : ∀ c v, P.pos c = some v → side xo n v ≤ B) : side xo n z ≤ B := by
  obtain ⟨p, hp, e⟩ := h
  rw [← side_same e]
  have hsub : {v | ∃ c, P.pos c = some v} ⊆ {v : Nat → ℝ | side xo n v ≤ B} := fun v ⟨c, hc⟩ => hB c v hc
  exact convexHull_min hsub (convex_le xo n B) hp

theorem Poly.Solid.exists_le {P : Poly} {z : Nat → ℝ} (h : P.Solid z) {xo n : Nat → ℝ} {B : ℝ} (hz : side xo n z ≤ B) : ∃ c v, P.pos c = some v ∧ side xo n v ≤ B := by
  by_contra hno
  push Not at hno
  obtain ⟨p, hp, e⟩ := h
  rw [← side_same e] at hz
  have hsub : {v | ∃ c, P.pos c = some v} ⊆ {v : Nat → ℝ | B < side xo n v} := fun v ⟨c, hc⟩ => hno c v hc
  have := convexHull_min hsub (convex_gt xo n B) hp
  simp only [Set.mem_ofPred_eq] at this
  linarith

/-- A polytope is what its walls bound. -/
theorem Poly.Shape.solid (h : P0.Shape pl) (hne : ∃ c, P0.Live c) (z : Nat → ℝ) : P0.Solid z ↔ ∀ c i, i < 3 → P0.Live c → hgt pl (P0.wall c i) z ≤ 0 :=
  ⟨fun hz _ _ hi hc => hz.le fun _ _ hv => h.le hv hc hi, fun hz => h.hull hne hz⟩

/-- The corners that are left or new are between old ones. -/
theorem Trimmed.between (h : P0.Shape pl) (g : Trimmed P0 xo n t R ed far) (hgp : P0.Clear xo n) {xo' n' : Nat → ℝ} {B : ℝ} (hB : ∀ c v, P0.pos c = some v → side xo' n' v ≤ B) {c : Nat} {v : Nat → ℝ} (hv : R.pos c = some v) :
    side xo' n' v ≤ B := by
  rcases (g.live c).1 (live_of_pos hv) with hw | ⟨h1, h2⟩
  · exact hB c v (by rw [← g.posOld c hw]; exact hv)
  · obtain ⟨xc, xd, l, p1, p2, p3, p4, p5, p6, p7, p8⟩ := g.place h hgp h1 h2
    obtain rfl := Option.some.inj (hv.symm.trans p7)
    rw [side_line]
    have b1 := hB _ _ p1
    have b2 := hB _ _ p2
    nlinarith

/-- The corners of the result are not beyond the plane. -/
theorem Trimmed.cut (h : P0.Shape pl) (g : Trimmed P0 xo n t R ed far) (hgp : P0.Clear xo n) {c : Nat} {v : Nat → ℝ} (hv : R.pos c = some v) : side xo n v ≤ 0 := by
  rcases (g.live c).1 (live_of_pos hv) with hw | ⟨h1, h2⟩
  · rw [g.posOld c hw] at hv
    obtain ⟨v', hv', hs⟩ := hw
    obtain rfl := Option.some.inj (hv.symm.trans hv')
    exact ((hgp c v hv).resolve_left hs).le
  · obtain ⟨xc, xd, l, -, -, -, -, -, -, p7, p8⟩ := g.place h hgp h1 h2
    obtain rfl := Option.some.inj (hv.symm.trans p7)
    exact p8.le

/-- Something is left when a point of the polytope is. -/
theorem Trimmed.nonempty (g : Trimmed P0 xo n t R ed far) {z : Nat → ℝ} (hz : P0.Solid z) (hs : side xo n z ≤ 1e-10) : ∃ c, R.Live c := by
  obtain ⟨c, v, hv, hle⟩ := hz.exists_le hs
  exact ⟨c, (g.live c).2 (Or.inl ⟨v, hv, not_lt.2 hle⟩)⟩

/-- The part of the polytope on one side of the plane. -/
theorem Trimmed.solid (h : P0.Shape pl) (g : Trimmed P0 xo n t R ed far) (hgp : P0.Clear xo n) (hpl : pl (some (Wall.pt t)) = (xo, n)) (z : Nat → ℝ) : R.Solid z ↔ P0.Solid z ∧ side xo n z ≤ 0 := by
  have hne : ∃ c, P0.Live c := by
    obtain ⟨r, hr, -⟩ := g.join
    exact ⟨r, hr.live⟩
  constructor
  · intro hz
    refine ⟨(h.solid hne z).2 fun c i hi hc => hz.le fun a v hv => g.between h hgp (fun b w hw => ?_) hv, hz.le fun a v hv => g.cut h hgp hv⟩
    exact h.le hw hc hi
  · rintro ⟨h1, h2⟩
    refine ((g.shape h hgp hpl).solid (g.nonempty h1 (h2.trans (by norm_num))) z).2 fun c i hi hc => ?_
    rcases g.wall_cases hc hi with e | ⟨b, j, e1, e2, e3⟩
    · unfold hgt; rw [e, hpl]; exact h2
    · rw [e3]; exact (h.solid hne z).1 h1 b j e2 e1

/-- **C101**.  `trim_vertex` at a corner beyond a plane no corner lies on or close to: the result is again the graph of corners of a convex polytope, with the plane as its new wall, and the polytope is exactly
the part of the old one that is not beyond the plane. -/
theorem C101_trim_exact (P : Poly) (pl : Option Wall → (Nat → ℝ) × (Nat → ℝ)) (h : P.Shape pl) (t : Nat) (xo n : Nat → ℝ) (hpl : pl (some (Wall.pt t)) = (xo, n)) (hgp : P.Clear xo n) (c : Nat) (v : Nat → ℝ) (hv : P.pos c = some v)
    (hs : side xo n v > 1e-10) :
    ∃ R, trimVertex t xo n (P.num + 1) c c P = some R ∧ R.Shape pl ∧ (∀ z, R.Solid z ↔ P.Solid z ∧ side xo n z ≤ 0) ∧
      ∀ b i, R.Live b → i < 3 → R.wall b i = some (Wall.pt t) ∨ ∃ b' i', P.Live b' ∧ i' < 3 ∧ R.wall b i = P.wall b' i' := by
  obtain ⟨R, ed, far, e, g⟩ := trimVertex_trimmed h t (c := c) (xo := xo) (n := n) ⟨v, hv, hs⟩
  exact ⟨R, e, g.shape h hgp hpl, g.solid h hgp hpl, fun b i hb hi => g.wall_cases hb hi⟩

/-- Not vacuous: a corner of the box `[-1, 1]³` is cut off; the centre stays, the corner goes. -/
example : ∃ pl R, (initPoly (fun _ => 0) 1).Shape pl ∧ trimVertex 0 (fun _ => 0.5) (fun _ => 1) 9 2 2 (initPoly (fun _ => 0) 1) = some R ∧ R.Shape pl ∧ R.Solid (fun _ => 0) ∧ ¬ R.Solid (fun _ => 1) ∧ (initPoly (fun _ => 0) 1).Solid (fun _ => 1) := by
  let pl : Option Wall → (Nat → ℝ) × (Nat → ℝ) := fun w => match w with
    | some (Wall.box k) => boxPlane (fun _ => 0) 1 k
    | _ => (fun _ => 0.5, fun _ => 1)
  have hsh : (initPoly (fun _ => 0) 1).Shape pl := initPoly_shape one_pos fun _ _ => rfl
  have hpos : ∀ {c v}, (initPoly (fun _ => 0) 1).pos c = some v → c < 8 ∧ v = fun d => (0 : ℝ) + boxSign c d * 1 := fun {c v} h => by
    have hc := initPoly_live.1 (live_of_pos h)
    unfold initPoly at h
    simp only [if_pos hc, Option.some.injEq] at h
    exact ⟨hc, h.symm⟩
  have hgp : (initPoly (fun _ => 0) 1).Clear (fun _ => 0.5) (fun _ => 1) := by
    intro c v hv
    obtain ⟨hc, rfl⟩ := hpos hv
    interval_cases c <;> unfold side boxSign <;> norm_num
  have hp2 : (initPoly (fun _ => 0) 1).pos 2 = some fun d => (0 : ℝ) + boxSign 2 d * 1 := rfl
  obtain ⟨R, e1, e2, e3, -⟩ := C101_trim_exact _ pl hsh 0 (fun _ => 0.5) (fun _ => 1) rfl hgp 2 _ hp2 (by unfold side boxSign; norm_num)
  have hbox : ∀ z : Nat → ℝ, (∀ k, k < 6 → side (boxPlane (fun _ => 0) 1 k).1 (boxPlane (fun _ => 0) 1 k).2 z ≤ 0) → (initPoly (fun _ => 0) 1).Solid z := fun z hz => by
    refine (hsh.solid ⟨0, initPoly_live.2 (by omega)⟩ z).2 fun c i hi hc => ?_
    obtain ⟨k, q1, q2, -⟩ := initPoly_wall (fun _ => 0) 1 (initPoly_live.1 hc) hi
    unfold hgt
    rw [q1]
    exact hz k q2
  refine ⟨pl, R, hsh, e1, e2, (e3 _).2 ⟨hbox _ fun k hk => ?_, by unfold side; norm_num⟩, fun h => ?_, hbox _ fun k hk => ?_⟩
  · interval_cases k <;> unfold side boxPlane boxNormal <;> norm_num
  · have := ((e3 _).1 h).2
    unfold side at this
    norm_num at this
  · interval_cases k <;> unfold side boxPlane boxNormal <;> norm_num

end VoroCrust
