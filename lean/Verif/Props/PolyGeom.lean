import Verif.Props.TrimRing
import Mathlib.LinearAlgebra.Matrix.Nondegenerate
import Mathlib.LinearAlgebra.Matrix.ToLinearEquiv
import Mathlib.Data.Prod.Lex
import Mathlib.Analysis.LocallyConvex.Separation
import Mathlib.Analysis.Convex.Topology
import Mathlib.Topology.Algebra.Module.FiniteDimension

/-! # The corners and the walls of a convex polytope -/

namespace VoroCrust

open Classical

/-- The signed distance from a wall. -/
def hgt (pl : Option Wall → (Nat → ℝ) × (Nat → ℝ)) (w : Option Wall) (v : Nat → ℝ) : ℝ := side (pl w).1 (pl w).2 v

/-- The graph of corners is that of the polytope bounded by the walls: every corner lies on its three walls and inside all others. -/
structure Poly.Shape (pl : Option Wall → (Nat → ℝ) × (Nat → ℝ)) (P : Poly) : Prop where
  wf : P.WF
  coh : P.Coh
  on : ∀ c v i, i < 3 → P.pos c = some v → hgt pl (P.wall c i) v = 0
  diff : ∀ c i j, P.Live c → i < 3 → j < 3 → P.wall c i = P.wall c j → i = j
  inside : ∀ c v b i, P.pos c = some v → P.Live b → i < 3 → hgt pl (P.wall b i) v < 0 ∨ ∃ j, j < 3 ∧ P.wall b i = P.wall c j
  inj : ∀ c d, P.Live c → P.Live d → (∀ i, i < 3 → ∃ j, j < 3 ∧ P.wall c i = P.wall d j) → c = d
  fill : P.Fill

variable {pl : Option Wall → (Nat → ℝ) × (Nat → ℝ)} {P : Poly}

theorem live_of_pos {c : Nat} {v : Nat → ℝ} (h : P.pos c = some v) : P.Live c := by simp [Poly.Live, h]

theorem Poly.Shape.le (h : P.Shape pl) {c b i : Nat} {v : Nat → ℝ} (hc : P.pos c = some v) (hb : P.Live b) (hi : i < 3) : hgt pl (P.wall b i) v ≤ 0 := by
  rcases h.inside c v b i hc hb hi with g | ⟨j, hj, e⟩
  · exact g.le
  · rw [e, h.on c v j hj hc]

theorem other_slots {i j : Nat} (hi : i < 3) (hj : j < 3) (h : j ≠ (i + 1) % 3) : j = i ∨ j = (i + 2) % 3 := by omega

/-- The neighbour along slot `i` lies on the walls `i` and `i + 2` and not on the wall `i + 1`. -/
theorem Poly.Shape.nb (h : P.Shape pl) {c i d : Nat} {u : Nat → ℝ} (hi : i < 3) (hc : P.Live c) (hn : P.nbr c i = some d) (hu : P.pos d = some u) :
    hgt pl (P.wall c i) u = 0 ∧ hgt pl (P.wall c ((i + 2) % 3)) u = 0 ∧ hgt pl (P.wall c ((i + 1) % 3)) u < 0 := by
  obtain ⟨j, hj, -, w1, w2⟩ := h.coh c i d hi hc hn
  obtain ⟨d', e1, -, e3⟩ := h.wf.out c i hi hc
  obtain rfl := Option.some.inj (hn.symm.trans e1)
  refine ⟨by rw [← w2]; exact h.on d u _ (by omega) hu, by rw [← w1]; exact h.on d u j hj hu, ?_⟩
  rcases h.inside d u c ((i + 1) % 3) hu hc (by omega) with g | ⟨k, hk, e⟩
  · exact g
  · refine absurd (h.inj c d hc (live_of_pos hu) fun a ha => ?_) e3.symm
    by_cases hai : a = (i + 1) % 3
    · exact ⟨k, hk, by rw [hai]; exact e⟩
    · rcases other_slots hi ha hai with rfl | rfl
      · exact ⟨_, by omega, w2.symm⟩
      · exact ⟨j, hj, w1.symm⟩

theorem Poly.Shape.simple (h : P.Shape pl) : P.Simple := by
  intro c i i' hi hi' hc e
  by_contra hne
  obtain ⟨d, e1, e2, -⟩ := h.wf.out c i hi hc
  obtain ⟨u, hu⟩ := Option.ne_none_iff_exists'.1 e2
  have h1 := (h.nb hi hc e1 hu).2.2
  obtain ⟨g1, g2, -⟩ := h.nb hi' hc (e.symm.trans e1) hu
  rcases other_slots (i := i') (j := (i + 1) % 3) hi' (by omega) (by omega) with q | q
  · rw [q, g1] at h1; exact lt_irrefl _ h1
  · rw [q, g2] at h1; exact lt_irrefl _ h1

/-- Three vectors paired with three functionals are a basis. -/
theorem solve3 (a e : Fin 3 → Fin 3 → ℝ) (h : ∀ i j, i ≠ j → ∑ k, a i k * e j k = 0) (hd : ∀ i, ∑ k, a i k * e i k ≠ 0) (y : Fin 3 → ℝ) (hy : ∀ i, ∑ k, a i k * y k = 0) : y = 0 := by
  have hm : (Matrix.of a) * (Matrix.of e).transpose = Matrix.diagonal fun i => ∑ k, a i k * e i k := by
    ext i j
    rw [Matrix.mul_apply]
    by_cases hij : i = j
    · subst hij; rw [Matrix.diagonal_apply_eq]; rfl
    · rw [Matrix.diagonal_apply_ne _ hij]; exact h i j hij
  have hdet : (Matrix.of a).det ≠ 0 := by
    intro h0
    have := congrArg Matrix.det hm
    rw [Matrix.det_mul, h0, zero_mul, Matrix.det_diagonal] at this
    exact (Finset.prod_ne_zero_iff.2 fun i _ => hd i) this.symm
  refine Matrix.eq_zero_of_mulVec_eq_zero hdet ?_
  ext i
  exact hy i

theorem side_diff (xo n u z : Nat → ℝ) : side xo n z - side xo n u = n 0 * (z 0 - u 0) + n 1 * (z 1 - u 1) + n 2 * (z 2 - u 2) := by unfold side; ring

/-- A point inside the three walls of a corner lies in the cone of the three edges. -/
theorem Poly.Shape.cone (h : P.Shape pl) {c : Nat} {u : Nat → ℝ} (hu : P.pos c = some u) {z : Nat → ℝ} (hz : ∀ i, i < 3 → hgt pl (P.wall c i) z ≤ 0) :
    ∃ (l : Nat → ℝ) (x : Nat → Nat → ℝ) (b : Nat → Nat), (∀ i, i < 3 → 0 ≤ l i ∧ P.nbr c i = some (b i) ∧ P.pos (b i) = some (x i) ∧ l i * hgt pl (P.wall c ((i + 1) % 3)) (x i) = hgt pl (P.wall c ((i + 1) % 3)) z) ∧
      ∀ k, k < 3 → z k - u k = l 0 * (x 0 k - u k) + l 1 * (x 1 k - u k) + l 2 * (x 2 k - u k) := by
  have hc := live_of_pos hu
  have hex : ∀ i, ∃ q : Nat × (Nat → ℝ), i < 3 → P.nbr c i = some q.1 ∧ P.pos q.1 = some q.2 := fun i => by
    by_cases hi : i < 3
    · obtain ⟨d, e1, e2, -⟩ := h.wf.out c i hi hc
      obtain ⟨v, hv⟩ := Option.ne_none_iff_exists'.1 e2
      exact ⟨(d, v), fun _ => ⟨e1, hv⟩⟩
    · exact ⟨(0, u), fun g => absurd g hi⟩
  choose q hq using hex
  have hnb := fun i (hi : i < 3) => h.nb hi hc (hq i hi).1 (hq i hi).2
  have hon := fun i (hi : i < 3) => h.on c u i hi hu
  refine ⟨fun i => hgt pl (P.wall c ((i + 1) % 3)) z / hgt pl (P.wall c ((i + 1) % 3)) (q i).2, fun i => (q i).2, fun i => (q i).1, fun i hi => ⟨div_nonneg_of_nonpos (hz _ (by omega)) (hnb i hi).2.2.le, (hq i hi).1, (hq i hi).2, ?_⟩, ?_⟩
  · exact div_mul_cancel₀ _ (hnb i hi).2.2.ne
  have hd : ∀ (w : Option Wall) (v : Nat → ℝ), hgt pl w v - hgt pl w u = (pl w).2 0 * (v 0 - u 0) + (pl w).2 1 * (v 1 - u 1) + (pl w).2 2 * (v 2 - u 2) := fun w v => side_diff _ _ _ _
  have key := solve3 (fun i k => (pl (P.wall c ((i.val + 1) % 3))).2 k) (fun i k => (q i).2 k - u k) (fun i j hij => ?_) (fun i => ?_)
    (fun k => z k - u k - (hgt pl (P.wall c 1) z / hgt pl (P.wall c 1) (q 0).2 * ((q 0).2 k - u k) + hgt pl (P.wall c 2) z / hgt pl (P.wall c 2) (q 1).2 * ((q 1).2 k - u k) +
      hgt pl (P.wall c 0) z / hgt pl (P.wall c 0) (q 2).2 * ((q 2).2 k - u k))) (fun i => ?_)
  · intro k hk
    have := congrFun key ⟨k, hk⟩
    simp only [Pi.zero_apply] at this
    exact sub_eq_zero.1 this
  · rw [Fin.sum_univ_three]
    have e := hd (P.wall c ((i.val + 1) % 3)) (q j).2
    rw [hon _ (by omega), sub_zero] at e
    refine e.symm.trans ?_
    have hi := i.isLt
    have hj := j.isLt
    have hne : i.val ≠ j.val := fun g => hij (Fin.ext g)
    rcases other_slots (i := j.val) (j := (i.val + 1) % 3) hj (by omega) (by omega) with g | g
    · rw [g]; exact (hnb j hj).1
    · rw [g]; exact (hnb j hj).2.1
  · rw [Fin.sum_univ_three]
    have e := hd (P.wall c ((i.val + 1) % 3)) (q i).2
    rw [hon _ (by omega), sub_zero] at e
    have := (hnb i i.isLt).2.2
    rw [e] at this
    exact this.ne
  · rw [Fin.sum_univ_three]
    have hz' := hd (P.wall c ((i.val + 1) % 3)) z
    have h0 := hd (P.wall c ((i.val + 1) % 3)) (q 0).2
    have h1 := hd (P.wall c ((i.val + 1) % 3)) (q 1).2
    have h2 := hd (P.wall c ((i.val + 1) % 3)) (q 2).2
    rw [hon _ (by omega), sub_zero] at hz' h0 h1 h2
    have n0 := hnb 0 (by omega)
    have n1 := hnb 1 (by omega)
    have n2 := hnb 2 (by omega)
    norm_num at n0 n1 n2
    have c0 := div_mul_cancel₀ (hgt pl (P.wall c 1) z) n0.2.2.ne
    have c1 := div_mul_cancel₀ (hgt pl (P.wall c 2) z) n1.2.2.ne
    have c2 := div_mul_cancel₀ (hgt pl (P.wall c 0) z) n2.2.2.ne
    have fin : ∀ {p0 p1 p2 : ℝ} {l0 l1 l2 H H0 H1 H2 : ℝ}, H = p0 * (z 0 - u 0) + p1 * (z 1 - u 1) + p2 * (z 2 - u 2) → H0 = p0 * ((q 0).2 0 - u 0) + p1 * ((q 0).2 1 - u 1) + p2 * ((q 0).2 2 - u 2) →
        H1 = p0 * ((q 1).2 0 - u 0) + p1 * ((q 1).2 1 - u 1) + p2 * ((q 1).2 2 - u 2) → H2 = p0 * ((q 2).2 0 - u 0) + p1 * ((q 2).2 1 - u 1) + p2 * ((q 2).2 2 - u 2) → l0 * H0 + l1 * H1 + l2 * H2 = H →
        p0 * (z 0 - u 0 - (l0 * ((q 0).2 0 - u 0) + l1 * ((q 1).2 0 - u 0) + l2 * ((q 2).2 0 - u 0))) + p1 * (z 1 - u 1 - (l0 * ((q 0).2 1 - u 1) + l1 * ((q 1).2 1 - u 1) + l2 * ((q 2).2 1 - u 1))) +
          p2 * (z 2 - u 2 - (l0 * ((q 0).2 2 - u 2) + l1 * ((q 1).2 2 - u 2) + l2 * ((q 2).2 2 - u 2))) = 0 := by
      intro p0 p1 p2 l0 l1 l2 H H0 H1 H2 eH e0 e1 e2 hs
      rw [eH, e0, e1, e2] at hs
      linear_combination -hs
    refine fin hz' h0 h1 h2 ?_
    have hi := i.isLt
    obtain ⟨i, hi'⟩ := i
    interval_cases i
    · show _ * hgt pl (P.wall c 1) (q 0).2 + _ * hgt pl (P.wall c 1) (q 1).2 + _ * hgt pl (P.wall c 1) (q 2).2 = hgt pl (P.wall c 1) z
      rw [n1.1, n2.2.1, c0]; ring
    · show _ * hgt pl (P.wall c 2) (q 0).2 + _ * hgt pl (P.wall c 2) (q 1).2 + _ * hgt pl (P.wall c 2) (q 2).2 = hgt pl (P.wall c 2) z
      rw [n0.2.1, n2.1, c1]; ring
    · have e20 : (2 + 1) % 3 = 0 := rfl
      simp only [e20]
      rw [n0.1, n1.2.1, c2]; ring

theorem side_comb {xo n u z : Nat → ℝ} {l : Nat → ℝ} {x : Nat → Nat → ℝ} (h : ∀ k, k < 3 → z k - u k = l 0 * (x 0 k - u k) + l 1 * (x 1 k - u k) + l 2 * (x 2 k - u k)) :
    side xo n z - side xo n u = l 0 * (side xo n (x 0) - side xo n u) + l 1 * (side xo n (x 1) - side xo n u) + l 2 * (side xo n (x 2) - side xo n u) := by
  rw [side_diff, side_diff, side_diff, side_diff, h 0 (by omega), h 1 (by omega), h 2 (by omega)]
  ring

/-- The value of a functional at a corner. -/
noncomputable def cornerVal (P : Poly) (g : (Nat → ℝ) → ℝ) (c : Nat) : ℝ :=
  match P.pos c with
  | some v => g v
  | none => 0

theorem cornerVal_eq {c : Nat} {v : Nat → ℝ} (h : P.pos c = some v) (g : (Nat → ℝ) → ℝ) : cornerVal P g c = g v := by unfold cornerVal; rw [h]

/-- From every corner but the best one an edge leads to a better one. -/
theorem Poly.Shape.ascend (h : P.Shape pl) (xo n : Nat → ℝ) {m c : Nat} {y u : Nat → ℝ} (hm : P.pos m = some y) (hu : P.pos c = some u) (hne : c ≠ m) (hmax : side xo n u ≤ side xo n y) :
    ∃ i d x, i < 3 ∧ P.nbr c i = some d ∧ P.pos d = some x ∧ (side xo n u < side xo n x ∨ (side xo n u = side xo n x ∧
      hgt pl (P.wall m 0) u + hgt pl (P.wall m 1) u + hgt pl (P.wall m 2) u < hgt pl (P.wall m 0) x + hgt pl (P.wall m 1) x + hgt pl (P.wall m 2) x)) := by
  have hcl := live_of_pos hu
  have hml := live_of_pos hm
  obtain ⟨l, x, b, hl, hz⟩ := h.cone hu (z := y) fun i hi => h.le hm hcl hi
  by_contra hcon
  push Not at hcon
  have hcon' : ∀ i, i < 3 → side xo n (x i) ≤ side xo n u ∧ (side xo n u = side xo n (x i) →
      hgt pl (P.wall m 0) (x i) + hgt pl (P.wall m 1) (x i) + hgt pl (P.wall m 2) (x i) ≤ hgt pl (P.wall m 0) u + hgt pl (P.wall m 1) u + hgt pl (P.wall m 2) u) := fun i hi => by
    have := hcon i (b i) (x i) hi (hl i hi).2.1 (hl i hi).2.2.1
    exact ⟨this.1, this.2⟩
  have s := side_comb (xo := xo) (n := n) hz
  have hneg : ∀ i, i < 3 → l i * (side xo n (x i) - side xo n u) ≤ 0 := fun i hi => mul_nonpos_of_nonneg_of_nonpos (hl i hi).1 (by linarith [(hcon' i hi).1])
  have q0 := hneg 0 (by omega)
  have q1 := hneg 1 (by omega)
  have q2 := hneg 2 (by omega)
  have hz0 : ∀ i, i < 3 → l i * (side xo n (x i) - side xo n u) = 0 := fun i hi => by interval_cases i <;> linarith
  have hg : ∀ i, i < 3 → l i * ((hgt pl (P.wall m 0) (x i) + hgt pl (P.wall m 1) (x i) + hgt pl (P.wall m 2) (x i)) - (hgt pl (P.wall m 0) u + hgt pl (P.wall m 1) u + hgt pl (P.wall m 2) u)) ≤ 0 := fun i hi => by
    rcases mul_eq_zero.1 (hz0 i hi) with g | g
    · rw [g, zero_mul]
    · exact mul_nonpos_of_nonneg_of_nonpos (hl i hi).1 (by linarith [(hcon' i hi).2 (by linarith)])
  have s0 := side_comb (xo := (pl (P.wall m 0)).1) (n := (pl (P.wall m 0)).2) hz
  have s1 := side_comb (xo := (pl (P.wall m 1)).1) (n := (pl (P.wall m 1)).2) hz
  have s2 := side_comb (xo := (pl (P.wall m 2)).1) (n := (pl (P.wall m 2)).2) hz
  have g0 := hg 0 (by omega)
  have g1 := hg 1 (by omega)
  have g2 := hg 2 (by omega)
  have o0 := h.on m y 0 (by omega) hm
  have o1 := h.on m y 1 (by omega) hm
  have o2 := h.on m y 2 (by omega) hm
  have l0 := h.le hu hml (i := 0) (by omega)
  have l1 := h.le hu hml (i := 1) (by omega)
  have l2 := h.le hu hml (i := 2) (by omega)
  unfold hgt at g0 g1 g2 o0 o1 o2 l0 l1 l2
  have hzero : ∀ i, i < 3 → hgt pl (P.wall m i) u = 0 := fun i hi => by unfold hgt; interval_cases i <;> linarith
  refine hne (h.inj m c hml hcl fun i hi => ?_).symm
  rcases h.inside c u m i hu hml hi with g | g
  · rw [hzero i hi] at g; exact absurd g (lt_irrefl _)
  · exact g

/-- The corners above a level are connected. -/
theorem Poly.Shape.conn (h : P.Shape pl) (xo n : Nat → ℝ) (A : Nat → Prop) (hA : ∀ c, A c → P.Live c) (hup : ∀ c d u v, A c → P.pos c = some u → P.pos d = some v → side xo n u ≤ side xo n v → A d) : P.Conn A := by
  have up : ∀ p : Nat → Prop, (∀ c i d, i < 3 → P.Live c → A c → A d → P.nbr c i = some d → p c → p d) → ∀ m y, P.pos m = some y → (∀ c u, P.pos c = some u → side xo n u ≤ side xo n y) → ∀ a, A a → p a → p m := by
    intro p hp m y hm hmax a ha hpa
    have hne : ((Finset.range P.num).filter fun c => A c ∧ p c).Nonempty := ⟨a, by rw [Finset.mem_filter, Finset.mem_range]; exact ⟨h.wf.fin a (hA a ha), ha, hpa⟩⟩
    obtain ⟨c, hc, hbest⟩ := Finset.exists_max_image _ (fun c => toLex (cornerVal P (side xo n) c, cornerVal P (fun v => hgt pl (P.wall m 0) v + hgt pl (P.wall m 1) v + hgt pl (P.wall m 2) v) c)) hne
    rw [Finset.mem_filter] at hc
    by_cases hcm : c = m
    · rw [← hcm]; exact hc.2.2
    · exfalso
      obtain ⟨u, hu⟩ := Option.ne_none_iff_exists'.1 (hA c hc.2.1)
      obtain ⟨i, d, x, hi, e1, e2, e3⟩ := h.ascend xo n hm hu hcm (hmax c u hu)
      have hAd : A d := hup c d u x hc.2.1 hu e2 (by rcases e3 with g | ⟨g, -⟩ <;> linarith)
      have hdm := hbest d (by
        rw [Finset.mem_filter, Finset.mem_range]
        exact ⟨h.wf.fin d (live_of_pos e2), hAd, hp c i d hi (live_of_pos hu) hc.2.1 hAd e1 hc.2.2⟩)
      rw [Prod.Lex.toLex_le_toLex, cornerVal_eq e2, cornerVal_eq e2, cornerVal_eq hu, cornerVal_eq hu] at hdm
      rcases hdm with g | ⟨g1, g2⟩
      · rcases e3 with e3 | ⟨e3, -⟩ <;> linarith
      · rcases e3 with e3 | ⟨e3, e4⟩ <;> linarith
  intro p hp a b ha hb hpa
  have hne : ((Finset.range P.num).filter fun c => P.Live c).Nonempty := ⟨a, by rw [Finset.mem_filter, Finset.mem_range]; exact ⟨h.wf.fin a (hA a ha), hA a ha⟩⟩
  obtain ⟨m, hm, hbest⟩ := Finset.exists_max_image _ (fun c => cornerVal P (side xo n) c) hne
  rw [Finset.mem_filter] at hm
  obtain ⟨y, hy⟩ := Option.ne_none_iff_exists'.1 hm.2
  have hmax : ∀ c u, P.pos c = some u → side xo n u ≤ side xo n y := fun c u hu => by
    have := hbest c (by rw [Finset.mem_filter, Finset.mem_range]; exact ⟨h.wf.fin c (live_of_pos hu), live_of_pos hu⟩)
    rwa [cornerVal_eq hu, cornerVal_eq hy] at this
  have pm := up p hp m y hy hmax a ha hpa
  by_contra hpb
  refine up (fun c => ¬ p c) (fun c i d hi hc hAc hAd hcd hnc hpd => hnc ?_) m y hy hmax b hb hpb pm
  obtain ⟨j, hj, e, -⟩ := h.coh c i d hi hc hcd
  exact hp d j c hj (hA d hAd) hAd hAc e hpd

/-- **The polytope has no other points than the hull of its corners.** -/
theorem Poly.Shape.hull (h : P.Shape pl) (hne : ∃ c, P.Live c) {z : Nat → ℝ} (hz : ∀ c i, i < 3 → P.Live c → hgt pl (P.wall c i) z ≤ 0) :
    ∃ p ∈ convexHull ℝ {v | ∃ c, P.pos c = some v}, ∀ k, k < 3 → p k = z k := by
  let π : (Nat → ℝ) →ₗ[ℝ] (Fin 3 → ℝ) := LinearMap.pi fun k => LinearMap.proj k.val
  have himg : π '' convexHull ℝ {v | ∃ c, P.pos c = some v} = convexHull ℝ (π '' {v | ∃ c, P.pos c = some v}) := π.image_convexHull _
  suffices hs : π z ∈ convexHull ℝ (π '' {v | ∃ c, P.pos c = some v}) by
    rw [← himg] at hs
    obtain ⟨p, hp, e⟩ := hs
    exact ⟨p, hp, fun k hk => congrFun e ⟨k, hk⟩⟩
  by_contra hno
  have hfin : (π '' {v | ∃ c, P.pos c = some v}).Finite := by
    refine Set.Finite.image _ ((Finset.finite_toSet ((Finset.range P.num).image fun c => (P.pos c).getD z)).subset ?_)
    rintro v ⟨c, hc⟩
    rw [Finset.mem_coe, Finset.mem_image]
    exact ⟨c, Finset.mem_range.2 (h.wf.fin c (live_of_pos hc)), by rw [hc]; rfl⟩
  have hclosed : IsClosed (convexHull ℝ (π '' {v | ∃ c, P.pos c = some v})) := hfin.isClosed_convexHull ℝ
  obtain ⟨f, s, hf1, hf2⟩ := geometric_hahn_banach_closed_point (convex_convexHull ℝ _) hclosed hno
  have hform : ∀ v : Nat → ℝ, f (π v) = side (fun _ => 0) (fun k => if hk : k < 3 then f (Pi.single ⟨k, hk⟩ 1) else 0) v := fun v => by
    have e : π v = v 0 • Pi.single (0 : Fin 3) (1 : ℝ) + v 1 • Pi.single (1 : Fin 3) (1 : ℝ) + v 2 • Pi.single (2 : Fin 3) (1 : ℝ) := by
      ext k
      fin_cases k <;> simp [π]
    rw [e, map_add, map_add, map_smul, map_smul, map_smul]
    unfold side
    simp only [smul_eq_mul, sub_zero]
    norm_num
    ring_nf
    rfl
  obtain ⟨c0, hc0⟩ := hne
  have hnem : ((Finset.range P.num).filter fun c => P.Live c).Nonempty := ⟨c0, by rw [Finset.mem_filter, Finset.mem_range]; exact ⟨h.wf.fin c0 hc0, hc0⟩⟩
  obtain ⟨m, hm, hbest⟩ := Finset.exists_max_image _ (fun c => cornerVal P (fun v => f (π v)) c) hnem
  rw [Finset.mem_filter] at hm
  obtain ⟨y, hy⟩ := Option.ne_none_iff_exists'.1 hm.2
  obtain ⟨l, x, b, hl, hcomb⟩ := h.cone hy (z := z) fun i hi => hz m i hi hm.2
  have key := side_comb (xo := fun _ => 0) (n := fun k => if hk : k < 3 then f (Pi.single ⟨k, hk⟩ 1) else 0) hcomb
  simp only [← hform] at key
  have hle : ∀ i, i < 3 → l i * (f (π (x i)) - f (π y)) ≤ 0 := fun i hi => by
    have hx := (hl i hi).2.2.1
    have := hbest (b i) (by rw [Finset.mem_filter, Finset.mem_range]; exact ⟨h.wf.fin _ (live_of_pos hx), live_of_pos hx⟩)
    rw [cornerVal_eq hx, cornerVal_eq hy] at this
    exact mul_nonpos_of_nonneg_of_nonpos (hl i hi).1 (by linarith)
  have q0 := hle 0 (by omega)
  have q1 := hle 1 (by omega)
  have q2 := hle 2 (by omega)
  have := hf1 (π y) (subset_convexHull ℝ _ ⟨y, ⟨m, hy⟩, rfl⟩)
  linarith

end VoroCrust
