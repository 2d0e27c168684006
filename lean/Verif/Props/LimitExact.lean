import Verif.Props.LimitFace
import Verif.Props.MeshMain

/-!
# The cells of the mesh are limits of exact cells

For seeds with gaps every cell that `generate_3d_voronoi_mesh` collects is the Voronoi cell, with the graph of corners of a limit of exact cells.
-/

namespace VoroCrust

open Classical Filter Topology

/-- A wall of the polytope. -/
def Poly.Used (P : Poly) (w : Wall) : Prop := ∃ b j, P.Live b ∧ j < 3 ∧ P.wall b j = some w

/-- The list of corners as read from a polytope, with the numbers `r` of the corners and `S` of the walls. -/
structure Reads (P : Poly) (r : Nat → Nat) (S : Wall → Nat) (l : List MeshCorner) : Prop where
  inj : ∀ b b', P.Live b → P.Live b' → r b = r b' → b = b'
  seed : ∀ w w', P.Used w → P.Used w' → S w = S w' → w = w'
  get : ∀ (c : Nat) (q : MeshCorner), l[c]? = some q → ∃ b v, P.pos b = some v ∧ r b = c ∧ q.x = v ∧ (∀ j, j < 3 → ∃ w, P.wall b j = some w ∧ q.seeds j = S w) ∧ ∀ j, j < 3 → ∃ d, P.nbr b j = some d ∧ q.nbr j = r d
  all : ∀ b, P.Live b → ∃ q, l[r b]? = some q

theorem Reads.at {P : Poly} {r : Nat → Nat} {S : Wall → Nat} {l : List MeshCorner} (h : Reads P r S l) {b : Nat} {v : Nat → ℝ} (hv : P.pos b = some v) :
    ∃ q, l[r b]? = some q ∧ q.x = v ∧ (∀ j, j < 3 → ∃ w, P.wall b j = some w ∧ q.seeds j = S w) ∧ ∀ j, j < 3 → ∃ d, P.nbr b j = some d ∧ q.nbr j = r d := by
  obtain ⟨q, hq⟩ := h.all b (live_of_pos hv)
  obtain ⟨b', v', h1, h2, h3, h4, h5⟩ := h.get _ q hq
  obtain rfl := h.inj b' b (live_of_pos h1) (live_of_pos hv) h2
  rw [hv] at h1
  obtain rfl := Option.some.inj h1
  exact ⟨q, hq, h3, h4, h5⟩

theorem Reads.places {P : Poly} {r : Nat → Nat} {S : Wall → Nat} {l : List MeshCorner} (h : Reads P r S l) : {v | ∃ (c : Nat) (q : MeshCorner), l[c]? = some q ∧ q.x = v} = {v | ∃ b, P.pos b = some v} := by
  ext v
  constructor
  · rintro ⟨c, q, hq, rfl⟩
    obtain ⟨b, v, h1, -, h3, -⟩ := h.get c q hq
    exact ⟨b, by rw [h3]; exact h1⟩
  · rintro ⟨b, hb⟩
    obtain ⟨q, h1, h2, -⟩ := h.at hb
    exact ⟨_, q, h1, h2⟩

/-- A polytope in general position whose planes are the bisectors of seeds, none of the others touching it, is an exact cell. -/
theorem shape_exact {pts : Nat → Nat → ℝ} {n i : Nat} {l : List MeshCorner} {P : Poly} {pl : Option Wall → (Nat → ℝ) × (Nat → ℝ)} (h : P.Shape pl) (hne : ∃ c, P.Live c) {r : Nat → Nat} {S : Wall → Nat} (hR : Reads P r S l)
    (hrange : ∀ w, P.Used w → S w < n ∧ S w ≠ i) (hpl : ∀ w, P.Used w → ∃ κ : ℝ, 0 < κ ∧ ∀ z, excess pts i (S w) z = κ * hgt pl (some w) z)
    (hoff : ∀ y, y < n → y ≠ i → (∀ w, P.Used w → S w ≠ y) → ∀ b v, P.pos b = some v → excess pts i y v < 0) : ExactCell pts n i l := by
  have sgn : ∀ {w : Wall} (z : Nat → ℝ), P.Used w → (excess pts i (S w) z = 0 ↔ hgt pl (some w) z = 0) ∧ (excess pts i (S w) z ≤ 0 ↔ hgt pl (some w) z ≤ 0) ∧ (excess pts i (S w) z < 0 ↔ hgt pl (some w) z < 0) := fun {w} z hw => by
    obtain ⟨κ, hκ, e⟩ := hpl w hw
    rw [e]
    refine ⟨by rw [mul_eq_zero]; exact or_iff_right hκ.ne', ?_, ?_⟩
    · constructor
      · intro g; by_contra hh; have := mul_pos hκ (not_le.1 hh); linarith
      · intro g; exact mul_nonpos_of_nonneg_of_nonpos hκ.le g
    · constructor
      · intro g; by_contra hh; have := mul_nonneg hκ.le (not_lt.1 hh); linarith
      · intro g; exact mul_neg_of_pos_of_neg hκ g
  have wl : ∀ {c : Nat} {q : MeshCorner}, l[c]? = some q → ∃ b, P.pos b = some q.x ∧ r b = c ∧ (∀ j, j < 3 → ∃ w, P.wall b j = some w ∧ q.seeds j = S w ∧ P.Used w) ∧ ∀ j, j < 3 → ∃ d, P.nbr b j = some d ∧ q.nbr j = r d := fun {c q} hq => by
    obtain ⟨b, v, h1, h2, h3, h4, h5⟩ := hR.get c q hq
    refine ⟨b, by rw [h3]; exact h1, h2, fun j hj => ?_, h5⟩
    obtain ⟨w, e1, e2⟩ := h4 j hj
    exact ⟨w, e1, e2, b, j, live_of_pos h1, hj, e1⟩
  -- the sign at the corners
  have hsign : ∀ {b : Nat} {v : Nat → ℝ} {y : Nat}, P.pos b = some v → y < n → y ≠ i → excess pts i y v < 0 ∨ ∃ j w, j < 3 ∧ P.wall b j = some w ∧ S w = y ∧ excess pts i y v = 0 := fun {b v y} hv hy hyi => by
    by_cases hu : ∃ w, P.Used w ∧ S w = y
    · obtain ⟨w, hw, rfl⟩ := hu
      obtain ⟨b', j, h1, h2, h3⟩ := hw
      rcases h.inside b v b' j hv h1 h2 with g | ⟨j', hj', e⟩
      · rw [h3] at g; exact Or.inl ((sgn v ⟨b', j, h1, h2, h3⟩).2.2.2 g)
      · rw [h3] at e
        refine Or.inr ⟨j', w, hj', e.symm, rfl, (sgn v ⟨b', j, h1, h2, h3⟩).1.2 ?_⟩
        rw [e]
        exact h.on b v j' hj' hv
    · push Not at hu
      exact Or.inl (hoff y hy hyi hu b v hv)
  refine ⟨fun c q j hq hj => ?_, fun c q j j' hq hj hj' e => ?_, fun c q y hq hy => ?_, fun c q j hq hj => ?_, fun c q y hq hy hyi h0 => ?_, fun c c' q q' hq hq' hall => ?_, fun z hz => ?_, fun c q j hq hj => ?_, fun c q j j' hq hj hj' e => ?_, fun c q z hq hz => ?_⟩
  · obtain ⟨b, hb, -, hw, -⟩ := wl hq
    obtain ⟨w, -, e2, e3⟩ := hw j hj
    rw [e2]; exact hrange w e3
  · obtain ⟨b, hb, -, hw, -⟩ := wl hq
    obtain ⟨w, a1, a2, a3⟩ := hw j hj
    obtain ⟨w', b1, b2, b3⟩ := hw j' hj'
    rw [a2, b2] at e
    exact h.diff b j j' (live_of_pos hb) hj hj' (by rw [a1, b1, hR.seed w w' a3 b3 e])
  · obtain ⟨b, hb, -⟩ := wl hq
    by_cases hyi : y = i
    · rw [hyi]; unfold excess; simp
    · rcases hsign hb hy hyi with g | ⟨-, -, -, -, -, g⟩
      · exact g.le
      · exact g.le
  · obtain ⟨b, hb, -, hw, -⟩ := wl hq
    obtain ⟨w, e1, e2, e3⟩ := hw j hj
    rw [e2, (sgn q.x e3).1, ← e1]
    exact h.on b q.x j hj hb
  · obtain ⟨b, hb, -, hw, -⟩ := wl hq
    rcases hsign hb hy hyi with g | ⟨j, w, g1, g2, g3, -⟩
    · rw [h0] at g; exact absurd g (lt_irrefl _)
    · obtain ⟨w', e1, e2, e3⟩ := hw j g1
      rw [g2] at e1
      obtain rfl := Option.some.inj e1
      exact ⟨j, g1, by rw [e2, g3]⟩
  · obtain ⟨b, hb, rfl, hw, -⟩ := wl hq
    obtain ⟨b', hb', rfl, hw', -⟩ := wl hq'
    rw [h.inj b b' (live_of_pos hb) (live_of_pos hb') fun j hj => ?_]
    obtain ⟨j', g1, g2⟩ := hall j hj
    obtain ⟨w, a1, a2, a3⟩ := hw j hj
    obtain ⟨w', b1, b2, b3⟩ := hw' j' g1
    rw [a2, b2] at g2
    exact ⟨j', g1, by rw [a1, b1, hR.seed w w' a3 b3 g2]⟩
  · rw [hR.places]
    refine h.hull hne fun c j hj hc => ?_
    obtain ⟨w, hw⟩ := Option.ne_none_iff_exists'.1 (h.wf.wall c j hj hc)
    have hu : P.Used w := ⟨c, j, hc, hj, hw⟩
    rw [hw, ← (sgn z hu).2.1]
    exact hz _ (hrange w hu).1
  · obtain ⟨b, hb, rfl, hw, hn⟩ := wl hq
    have hlb := live_of_pos hb
    obtain ⟨d, d1, d2⟩ := hn j hj
    obtain ⟨d', e1, e2, e3⟩ := h.wf.out b j hj hlb
    rw [d1] at e1
    obtain rfl := Option.some.inj e1
    obtain ⟨u, hu⟩ := Option.ne_none_iff_exists'.1 e2
    obtain ⟨q', f1, f2, f3, f4⟩ := hR.at hu
    obtain ⟨j', g1, g2, g3, g4⟩ := h.coh b j d hj hlb d1
    rw [d2]
    refine ⟨fun e => e3 (hR.inj _ _ e2 hlb e), q', j', f1, g1, ?_, ?_, ?_⟩
    · obtain ⟨d', k1, k2⟩ := f4 j' g1
      rw [g2] at k1
      obtain rfl := Option.some.inj k1
      exact k2
    · obtain ⟨w, k1, k2⟩ := f3 j' g1
      obtain ⟨w', m1, m2, -⟩ := hw ((j + 2) % 3) (by omega)
      rw [g3, m1] at k1
      obtain rfl := Option.some.inj k1
      rw [k2, m2]
    · obtain ⟨w, k1, k2⟩ := f3 ((j' + 2) % 3) (by omega)
      obtain ⟨w', m1, m2, -⟩ := hw j hj
      rw [g4, m1] at k1
      obtain rfl := Option.some.inj k1
      rw [k2, m2]
  · obtain ⟨b, hb, rfl, -, hn⟩ := wl hq
    obtain ⟨d, d1, d2⟩ := hn j hj
    obtain ⟨d', e1, e2⟩ := hn j' hj'
    have hlb := live_of_pos hb
    rw [d2, e2] at e
    obtain ⟨x, x1, x2, -⟩ := h.wf.out b j hj hlb
    obtain ⟨x', y1, y2, -⟩ := h.wf.out b j' hj' hlb
    rw [d1] at x1
    rw [e1] at y1
    obtain rfl := Option.some.inj x1
    obtain rfl := Option.some.inj y1
    exact h.simple b j j' hj hj' hlb (by rw [d1, e1, hR.inj _ _ x2 y2 e])
  · obtain ⟨b, hb, rfl, hw, hn⟩ := wl hq
    have hlb := live_of_pos hb
    obtain ⟨k, x, bb, g1, g2⟩ := h.cone hb (z := z) fun j hj => by
      obtain ⟨w, e1, e2, e3⟩ := hw j hj
      rw [e1, ← (sgn z e3).2.1, ← e2]
      exact hz j hj
    refine ⟨k, x, fun j hj => ?_, g2⟩
    obtain ⟨f1, f2, f3, f4⟩ := g1 j hj
    obtain ⟨d, d1, d2⟩ := hn j hj
    rw [d1] at f2
    obtain rfl := Option.some.inj f2
    obtain ⟨q', p1, p2, -⟩ := hR.at f3
    refine ⟨f1, ⟨q', by rw [d2]; exact p1, p2⟩, fun h0 => ?_⟩
    obtain ⟨w, e1, e2, e3⟩ := hw ((j + 1) % 3) (by omega)
    have n3 := (h.nb hj hlb d1 f3).2.2
    rw [e2, (sgn z e3).1, ← e1] at h0
    rw [h0] at f4
    rcases mul_eq_zero.1 f4 with g | g
    · exact g
    · rw [g] at n3; exact absurd n3 (lt_irrefl _)

theorem Twin.used {P Q : Poly} (h : Twin P Q) (w : Wall) : Q.Used w ↔ P.Used w := by
  unfold Poly.Used
  simp only [h.alive, h.wall]

/-- A limit of polytopes in general position whose planes are the bisectors of seeds, the others not cutting it, is a limit of exact cells. -/
theorem weak_limit {pts : Nat → Nat → ℝ} {n i : Nat} {l : List MeshCorner} {P : Poly} {pl : Option Wall → (Nat → ℝ) × (Nat → ℝ)} (h : P.Weak pl) (hne : ∃ c, P.Live c) {r : Nat → Nat} {S : Wall → Nat} (hR : Reads P r S l)
    (hrange : ∀ w, P.Used w → S w < n ∧ S w ≠ i) (hpl : ∀ w, P.Used w → normSq3 (pl (some w)).2 = 1 ∧ ∀ z, excess pts i (S w) z = 2 * euclid 3 (pts (S w)) (pts i) * hgt pl (some w) z)
    (hdist : ∀ y, y < n → y ≠ i → 0 < euclid 3 (pts y) (pts i)) (hnear : ∀ y b v, y < n → P.pos b = some v → excess pts i y v ≤ 0) : LimitCell pts n i l := by
  have wl : ∀ {c : Nat} {q : MeshCorner}, l[c]? = some q → ∃ b, P.pos b = some q.x ∧ r b = c ∧ (∀ j, j < 3 → ∃ w, P.wall b j = some w ∧ q.seeds j = S w ∧ P.Used w) := fun {c q} hq => by
    obtain ⟨b, v, h1, h2, h3, h4, h5⟩ := hR.get c q hq
    refine ⟨b, by rw [h3]; exact h1, h2, fun j hj => ?_⟩
    obtain ⟨w, e1, e2⟩ := h4 j hj
    exact ⟨w, e1, e2, b, j, live_of_pos h1, hj, e1⟩
  have sgn : ∀ {w : Wall} (z : Nat → ℝ), P.Used w → (excess pts i (S w) z = 0 ↔ hgt pl (some w) z = 0) ∧ (excess pts i (S w) z ≤ 0 ↔ hgt pl (some w) z ≤ 0) := fun {w} z hw => by
    have hκ : 0 < 2 * euclid 3 (pts (S w)) (pts i) := by have := hdist _ (hrange w hw).1 (hrange w hw).2; linarith
    rw [(hpl w hw).2]
    refine ⟨by rw [mul_eq_zero]; exact or_iff_right hκ.ne', ?_⟩
    constructor
    · intro g; by_contra hh; have := mul_pos hκ (not_le.1 hh); linarith
    · intro g; exact mul_nonpos_of_nonneg_of_nonpos hκ.le g
  obtain ⟨Q, δ, hN, hsh, hδ, hδ0⟩ := h
  have hweak : P.Weak pl := ⟨Q, δ, hN, hsh, hδ, hδ0⟩
  refine ⟨fun c q y hq hy => ?_, fun c q j hq hj => ?_, fun c q z hq hz => ?_, fun z hz => ?_, ?_⟩
  · obtain ⟨b, hb, -⟩ := wl hq
    exact hnear y b q.x hy hb
  · obtain ⟨b, hb, -, hw⟩ := wl hq
    obtain ⟨w, e1, e2, e3⟩ := hw j hj
    rw [e2, (sgn q.x e3).1, ← e1]
    exact hweak.on hj hb
  · obtain ⟨b, hb, -, hw⟩ := wl hq
    refine hweak.only hb fun j hj => ?_
    obtain ⟨w, e1, e2, e3⟩ := hw j hj
    rw [e1, ← (sgn z e3).1, ← e2]
    exact hz j hj
  · rw [hR.places]
    refine (hweak.solid hne z).2 fun c j hj hc => ?_
    obtain ⟨v, hv⟩ := Option.ne_none_iff_exists'.1 hc
    obtain ⟨q, h1, -, h3, -⟩ := hR.at hv
    obtain ⟨w, e1, e2⟩ := h3 j hj
    rw [e1, ← (sgn z ⟨c, j, hc, hj, e1⟩).2, ← e2]
    exact hz _ q j h1 hj
  · -- the copies
    have hS : ∀ y, ∃ w, (∃ w, P.Used w ∧ S w = y) → P.Used w ∧ S w = y := fun y => by
      by_cases g : ∃ w, P.Used w ∧ S w = y
      · obtain ⟨w, hw⟩ := g; exact ⟨w, fun _ => hw⟩
      · exact ⟨Wall.box 0, fun g' => absurd g' g⟩
    choose W hW using hS
    have hb : ∀ c, ∃ b, (∃ q, l[c]? = some q) → P.Live b ∧ r b = c := fun c => by
      by_cases g : ∃ q, l[c]? = some q
      · obtain ⟨q, hq⟩ := g
        obtain ⟨b, h1, h2, -⟩ := wl hq
        exact ⟨b, fun _ => ⟨live_of_pos h1, h2⟩⟩
      · exact ⟨0, fun g' => absurd g' g⟩
    choose β hβ using hb
    let lam : Nat → Nat → ℝ := fun k y => if ∃ w, P.Used w ∧ S w = y then 1 + 2 * δ k (some (W y)) / euclid 3 (pts y) (pts i) else 2 + ∑ b ∈ Finset.range P.num, |excess pts i y (posAt (Q k) b)| / distSq3 (pts y) (pts i)
    have hlam : ∀ {k : Nat} {w : Wall}, P.Used w → lam k (S w) = 1 + 2 * δ k (some w) / euclid 3 (pts (S w)) (pts i) := fun {k w} hw => by
      have hex : ∃ w', P.Used w' ∧ S w' = S w := ⟨w, hw, rfl⟩
      show (if _ then _ else _) = _
      rw [if_pos hex, hR.seed _ w (hW _ hex).1 hw (hW _ hex).2]
    have hone : ∀ k y, 1 ≤ lam k y := fun k y => by
      show 1 ≤ (if ∃ w, P.Used w ∧ S w = y then 1 + 2 * δ k (some (W y)) / euclid 3 (pts y) (pts i) else 2 + ∑ b ∈ Finset.range P.num, |excess pts i y (posAt (Q k) b)| / distSq3 (pts y) (pts i))
      split_ifs
      · have := div_nonneg (mul_nonneg zero_le_two (hδ k (some (W y)))) (euclid_nonneg 3 (pts y) (pts i))
        linarith
      · have : 0 ≤ ∑ b ∈ Finset.range P.num, |excess pts i y (posAt (Q k) b)| / distSq3 (pts y) (pts i) := Finset.sum_nonneg fun b _ => div_nonneg (abs_nonneg _) (by rw [distSq3_sq]; positivity)
        linarith
    refine ⟨lam, fun k c => posAt (Q k) (β c), ?_, fun c q j hq hj => ?_, fun c q d hq _ => ?_⟩
    · filter_upwards [hsh, hN.twin] with k hk ht
      refine ⟨hone k, shape_exact hk (by obtain ⟨c, hc⟩ := hne; exact ⟨c, (ht.alive c).2 hc⟩) (r := r) (S := S) ?_ (fun w hw => hrange w ((ht.used w).1 hw)) (fun w hw => ?_) fun y hy hyi hno b v hv => ?_⟩
      · refine ⟨fun b b' hb hb' e => hR.inj b b' ((ht.alive b).1 hb) ((ht.alive b').1 hb') e, fun w w' hw hw' e => hR.seed w w' ((ht.used w).1 hw) ((ht.used w').1 hw') e, fun c q hq => ?_, fun b hb => ?_⟩
        · obtain ⟨q0, hq0, rfl⟩ := moved_get.1 hq
          obtain ⟨b, v, h1, h2, h3, h4, h5⟩ := hR.get c q0 hq0
          obtain ⟨g1, g2⟩ := hβ c ⟨q0, hq0⟩
          have hbb : β c = b := hR.inj _ _ g1 (live_of_pos h1) (by rw [g2, h2])
          rw [← hbb] at h1 h2 h4 h5
          exact ⟨β c, posAt (Q k) (β c), ht.pos h1, h2, rfl, fun j hj => by rw [ht.wall]; exact h4 j hj, fun j hj => by rw [ht.nbr]; exact h5 j hj⟩
        · obtain ⟨q, hq⟩ := hR.all b ((ht.alive b).1 hb)
          exact ⟨_, moved_some hq⟩
      · have hw' := (ht.used w).1 hw
        have hD := hdist _ (hrange w hw').1 (hrange w hw').2
        refine ⟨lam k (S w) * (2 * euclid 3 (pts (S w)) (pts i)), mul_pos (lt_of_lt_of_le one_pos (hone k _)) (by linarith), fun z => ?_⟩
        rw [excess_stretch, (hpl w hw').2, hgt_shift, (hpl w hw').1, distSq3_sq, hlam hw']
        field_simp
        ring
      · have hno' : ¬ ∃ w, P.Used w ∧ S w = y := by rintro ⟨w, h1, h2⟩; exact hno w ((ht.used w).2 h1) h2
        have hbl : P.Live b := (ht.alive b).1 (live_of_pos hv)
        have hD : 0 < distSq3 (pts y) (pts i) := by rw [distSq3_sq]; have := hdist y hy hyi; positivity
        have hl : lam k y = 2 + ∑ b ∈ Finset.range P.num, |excess pts i y (posAt (Q k) b)| / distSq3 (pts y) (pts i) := by
          show (if _ then _ else _) = _
          rw [if_neg hno']
        have hle := Finset.single_le_sum (s := Finset.range P.num) (f := fun b => |excess pts i y (posAt (Q k) b)| / distSq3 (pts y) (pts i)) (fun b _ => div_nonneg (abs_nonneg _) hD.le) (Finset.mem_range.2 (hweak.wf.fin b hbl))
        rw [← posAt_eq hv, excess_stretch]
        refine mul_neg_of_pos_of_neg (lt_of_lt_of_le one_pos (hone k y)) ?_
        have hle := (div_le_iff₀ hD).1 hle
        have h2 := le_abs_self (excess pts i y (posAt (Q k) b))
        rw [hl]
        nlinarith
    · obtain ⟨b, hb, -, hw⟩ := wl hq
      obtain ⟨w, e1, e2, e3⟩ := hw j hj
      rw [e2]
      simp only [hlam e3]
      have := ((((hδ0 (some w)).const_mul 2).div_const (euclid 3 (pts (S w)) (pts i))).const_add 1)
      simpa using this
    · obtain ⟨b, hb, hrb, -⟩ := wl hq
      obtain ⟨g1, g2⟩ := hβ c ⟨q, hq⟩
      have hbb : β c = b := hR.inj _ _ g1 (live_of_pos hb) (by rw [g2, hrb])
      show Tendsto (fun k => posAt (Q k) (β c) d) atTop (𝓝 (q.x d))
      rw [hbb]
      exact hN.lim b q.x hb d

/-! ## The cells from the tree -/

theorem bisectorNormal_norm {x y : Nat → ℝ} (hy : euclid 3 y x ≠ 0) : normSq3 (bisectorNormal x y) = 1 := by
  have h1 : Real.sqrt (dotDiff x y y) = euclid 3 y x := by rw [dotDiff_self, sqrt_distSq3]
  have h2 : (y 0 - x 0) * (y 0 - x 0) + (y 1 - x 1) * (y 1 - x 1) + (y 2 - x 2) * (y 2 - x 2) = euclid 3 y x ^ 2 := by rw [← distSq3_sq]; unfold distSq3; ring
  unfold normSq3 bisectorNormal
  rw [h1]
  field_simp
  linarith

/-- **The vertices have gaps**: where a point is the only one as far from four seeds, the first one inner, and no seed is nearer, every other seed is as far or at least `1e-10` farther. -/
def VertexGap (xs : List SeedRec) : Prop :=
  ∀ a b c d y z, InnerSeed xs a → b < xs.length → c < xs.length → d < xs.length → y < xs.length → euclid 3 z (seedPos xs a) = euclid 3 z (seedPos xs b) → euclid 3 z (seedPos xs a) = euclid 3 z (seedPos xs c) →
    euclid 3 z (seedPos xs a) = euclid 3 z (seedPos xs d) →
    (∀ u, euclid 3 u (seedPos xs a) = euclid 3 u (seedPos xs b) → euclid 3 u (seedPos xs a) = euclid 3 u (seedPos xs c) → euclid 3 u (seedPos xs a) = euclid 3 u (seedPos xs d) → ∀ k, k < 3 → u k = z k) →
    InVoronoi xs a z → euclid 3 z (seedPos xs a) = euclid 3 z (seedPos xs y) ∨ euclid 3 z (seedPos xs a) + 1e-10 ≤ euclid 3 z (seedPos xs y)

/-- **The search ends clearly**: a cell whose diameter is below the search radius within the tolerance of the test that ends the search is below it. -/
def SearchClear (xs : List SeedRec) (i : Nat) (ρ : ℝ) : Prop := (∀ z, InVoronoi xs i z → 2 * euclid 3 z (seedPos xs i) < ρ + 1e-10) → ∀ z, InVoronoi xs i z → 2 * euclid 3 z (seedPos xs i) < ρ

theorem ball3_convex (x : Nat → ℝ) (R : ℝ) : Convex ℝ {v : Nat → ℝ | distSq3 v x ≤ R} := by
  intro u hu v hv s t hs ht hst
  rw [Set.mem_ofPred_eq] at hu hv ⊢
  have key : ∀ a b c : ℝ, (s * a + t * b - c) * (s * a + t * b - c) ≤ s * ((a - c) * (a - c)) + t * ((b - c) * (b - c)) := fun a b c => by
    obtain rfl : t = 1 - s := by linarith
    nlinarith [mul_nonneg (mul_nonneg hs ht) (sq_nonneg (a - b))]
  have h0 := key (u 0) (v 0) (x 0)
  have h1 := key (u 1) (v 1) (x 1)
  have h2 := key (u 2) (v 2) (x 2)
  have h3 : s * distSq3 u x + t * distSq3 v x ≤ s * R + t * R := add_le_add (mul_le_mul_of_nonneg_left hu hs) (mul_le_mul_of_nonneg_left hv ht)
  have h4 : s * R + t * R = R := by rw [← add_mul, hst, one_mul]
  unfold distSq3 at h3 ⊢
  simp only [Pi.add_apply, Pi.smul_apply, smul_eq_mul]
  linarith

/-- The seed of a wall. -/
noncomputable def wallOld (T : MTree) (loc : List Nat) : Wall → Nat
  | Wall.box _ => 0
  | Wall.pt jj => ((loc[jj]?).bind (oldAt T)).getD 0

theorem gap_cell {T : MTree} {xs : List SeedRec} (h : T.Holds xs) {a o : Nat} {s : SeedRec} (ha : a < xs.length) (hms : meshSeed T xs a = some (o, s)) (hreg : s.region ≠ 0) (hsz : 0 < 2 * s.size)
    {fuel' fuel : Nat} {lc : List CellCorner} {l : List MeshCorner} (hget : getCell T (ghostSeed T xs) a fuel' fuel (2 * s.size) = some (some lc)) (hold : oldCorners T lc = some l)
    (hgp : ∀ m, m < fuel → GapPos T.P.pts T.P.num (T.P.pts a) (10 * (2 * s.size * 2 ^ (m + 1)))) (hrg : ∀ m, m < fuel → SearchClear xs o (2 * s.size * 2 ^ (m + 1)))
    (hsep : ∀ z, z < T.P.num → z ≠ a → 2e-5 ≤ euclid 3 (T.P.pts z) (T.P.pts a)) (hvc : VertexGap xs) :
    LimitCell (seedPos xs) xs.length o l ∧ ExactOwner xs (newRank T xs) o l := by
  have hT : CellTree T := ⟨h.tree, h.dim⟩
  have hvor := C51_gap_partial T hT _ a fuel' fuel (2 * s.size) hsz lc hget hgp (fun z hz => by
    by_cases e : z = a
    · left; rw [e]; exact euclid_self 3 _
    · exact Or.inr (hsep z hz e))
  obtain ⟨m, q0, qs, P, hm, hq, hc, hrv, hl⟩ := getCell_round fuel hget
  have hg := hgp m hm
  have hrgm := hrg m hm
  generalize hρ : 2 * s.size * 2 ^ (m + 1) = ρ at *
  have hρ0 : 0 < ρ := by rw [← hρ]; positivity
  obtain ⟨loc, e, hnd, h2, h3⟩ := C08_in_sphere_sound_complete T.P T.ln hT.tree (fun _ => true) (T.P.pts a) ρ hρ0.le
  obtain rfl := Option.some.inj (e.symm.trans hq)
  rw [hT.dim] at h3
  have hloc : ∀ b ∈ q0 :: qs, b < xs.length := fun b hb => by rw [← h.num]; exact (h2 b hb).1
  generalize q0 :: qs = loc at *
  have hgl := hg.toLoc (fun b hb => (h2 b hb).1)
  have hB : 0 < 10 * ρ := by linarith
  have hst := cellLoop_gap hB hgl fuel' (GapState.start hB) hc
  have hwf := hst.weak.wf
  have hself : a ∈ loc := h3 a (by rw [h.num]; exact ha) rfl (by rw [euclid_self]; exact hρ0)
  obtain ⟨o', s', m1, m2, m3, m4⟩ := meshSeed_spec h ha
  rw [hms, Option.some.injEq, Prod.mk.injEq] at m2
  obtain ⟨rfl, rfl⟩ := m2
  have hxo : T.P.pts a = seedPos xs o := (oldAt_pos h ha m1).1
  have hne : ∀ {b : Nat}, b < xs.length → b ≠ a → euclid 3 (T.P.pts b) (T.P.pts a) ≠ 0 := fun {b} hb hba => by
    have := hsep b (by rw [h.num]; exact hb) hba
    intro h0
    rw [h0] at this
    norm_num at this
  obtain ⟨k1, k2⟩ := resultCorners_get _ hl
  have hr0 : P.rank 0 = 0 := rfl
  rw [hr0, Nat.zero_add, Nat.zero_add] at k2
  simp only [hr0, Nat.zero_add] at k1
  obtain ⟨l1, l2⟩ := oldCorners_get lc hold
  -- the walls are bisectors of seeds
  have hused : ∀ w, P.Used w → ∃ jj y ob, w = Wall.pt jj ∧ loc[jj]? = some y ∧ y < xs.length ∧ y ≠ a ∧ oldAt T y = some ob ∧ ob < xs.length ∧ wallOld T loc w = ob ∧ T.P.pts y = seedPos xs ob := by
    rintro w ⟨b, j, hb, hj, hw⟩
    obtain ⟨v, hv⟩ := Option.ne_none_iff_exists'.1 hb
    obtain ⟨q, -, hres⟩ := resultCorners_all _ hl b v (Nat.zero_le _) (by have := hwf.fin b hb; omega) hv
    have := triple?_eq (resultCorner_x hres).2.2.1 j hj
    obtain ⟨w', hw', hlw⟩ := hst.wall_loc hb hj
    rw [hw] at hw'
    obtain rfl := Option.some.inj hw'
    rw [hw] at this
    rcases hlw with ⟨k, -, rfl⟩ | ⟨jj, y, rfl, e1, e2⟩
    · simp [wallSeed] at this
    · rw [List.getElem?_map, Option.map_eq_some_iff] at e1
      obtain ⟨y, hy, rfl⟩ := e1
      have hlt := hloc _ (List.mem_of_getElem? hy)
      obtain ⟨ob, sb, eb, -⟩ := oldAt_spec h hlt
      refine ⟨jj, y, ob, rfl, hy, hlt, fun g => e2 (by rw [g]; exact euclid_self 3 _), eb, (oldAt_pos h hlt eb).2, ?_, (oldAt_pos h hlt eb).1⟩
      show ((loc[jj]?).bind (oldAt T)).getD 0 = ob
      rw [hy]
      simp [eb]
  have hhgt : ∀ {jj y : Nat} (v : Nat → ℝ), loc[jj]? = some y → hgt (cellPl (T.P.pts a) (10 * ρ) (loc.map T.P.pts)) (some (Wall.pt jj)) v = side (midPoint (T.P.pts a) (T.P.pts y)) (bisectorNormal (T.P.pts a) (T.P.pts y)) v := by
    intro jj y v hy
    unfold hgt
    rw [cellPl_pt (show (loc.map T.P.pts)[jj]? = some (T.P.pts y) by rw [List.getElem?_map, hy]; rfl)]
  -- the list
  have cd : ∀ {c : Nat} {q : MeshCorner}, l[c]? = some q → ∃ b v, P.pos b = some v ∧ P.rank b = c ∧ q.x = v ∧
      (∀ j, j < 3 → ∃ w, P.wall b j = some w ∧ q.seeds j = wallOld T loc w) ∧ (∀ j, j < 3 → ∃ d, P.nbr b j = some d ∧ q.nbr j = P.rank d) ∧
      ∃ ow, cornerOwner (ghostSeed T xs) T.P.pts v (Real.sqrt (distSq3 v (T.P.pts a))) loc none = some ow ∧ oldAt T ow = some q.owner := by
    intro c q hcq
    obtain ⟨qc, e1, e2⟩ := l2 c q hcq
    obtain ⟨f1, f2, f3, ow, f4, f5⟩ := oldCorner_eq e2
    obtain ⟨b, v, -, hv, hrb, hres⟩ := k1 c qc e1
    obtain ⟨x1, x2, x3, x4⟩ := resultCorner_x hres
    have hlb := live_of_pos hv
    refine ⟨b, v, hv, hrb, by rw [f1, x1], fun j hj => ?_, fun j hj => ?_, ow, by rw [← x2]; exact f4, f5⟩
    · have := triple?_eq x3 j hj
      obtain ⟨w, hw⟩ := Option.ne_none_iff_exists'.1 (hwf.wall b j hj hlb)
      obtain ⟨jj, y, ob, rfl, g2, g3, g4, g5, g6, g7, -⟩ := hused w ⟨b, j, hlb, hj, hw⟩
      rw [hw] at this
      have hy : loc[jj]? = some (qc.seeds j) := this
      rw [g2] at hy
      obtain rfl := Option.some.inj hy
      have := f3 j hj
      rw [g5] at this
      exact ⟨_, hw, by rw [g7]; exact (Option.some.inj this).symm⟩
    · obtain ⟨d, d1, d2, d3, d4⟩ := WF.newIndex hwf hj hlb
      have := triple?_eq x4 j hj
      simp only [d4, Option.some.injEq] at this
      exact ⟨d, d1, by rw [f2]; exact this.symm⟩
  have hR : Reads P P.rank (wallOld T loc) l := by
    refine ⟨fun b b' hb hb' e => rank_inj P hb hb' e, fun w w' hw hw' e => ?_, fun c q hq => ?_, fun b hb => ?_⟩
    · obtain ⟨jj, y, ob, rfl, g2, g3, g4, g5, g6, g7, -⟩ := hused w hw
      obtain ⟨jj', y', ob', rfl, g2', g3', g4', g5', g6', g7', -⟩ := hused w' hw'
      rw [g7, g7'] at e
      subst e
      have := oldAt_inj h g3 g3' g5 g5'
      rw [this] at g2
      obtain ⟨t1, t2⟩ := List.getElem?_eq_some_iff.1 g2
      obtain ⟨t3, t4⟩ := List.getElem?_eq_some_iff.1 g2'
      have : jj = jj' := (List.Nodup.getElem_inj_iff hnd).1 (t2.trans t4.symm)
      rw [this]
    · obtain ⟨b, v, t1, t2, t3, t4, t5, -⟩ := cd hq
      exact ⟨b, v, t1, t2, t3, t4, t5⟩
    · have : P.rank b < l.length := by rw [l1, ← k2]; exact rank_lt P (hwf.fin b hb) hb
      exact ⟨_, List.getElem?_eq_getElem this⟩
  -- the places
  have hset : ∀ v, (∃ q ∈ lc, q.x = v) ↔ ∃ (c : Nat) (q : MeshCorner), l[c]? = some q ∧ q.x = v := by
    intro v
    constructor
    · rintro ⟨q, hq, rfl⟩
      obtain ⟨c, hc⟩ := List.mem_iff_getElem?.1 hq
      have hlt : c < l.length := by rw [l1]; exact (List.getElem?_eq_some_iff.1 hc).1
      obtain ⟨qc, e1, e2⟩ := l2 c _ (List.getElem?_eq_getElem hlt)
      rw [hc] at e1
      obtain rfl := Option.some.inj e1
      exact ⟨c, _, List.getElem?_eq_getElem hlt, (oldCorner_eq e2).1⟩
    · rintro ⟨c, q, hq, rfl⟩
      obtain ⟨qc, e1, e2⟩ := l2 c q hq
      exact ⟨qc, List.mem_of_getElem? e1, (oldCorner_eq e2).1.symm⟩
  have hS : {v | ∃ q ∈ lc, q.x = v} = {v | ∃ b, P.pos b = some v} := by rw [← hR.places]; exact Set.ext hset
  have near : ∀ y b v, y < xs.length → P.pos b = some v → excess (seedPos xs) o y v ≤ 0 := by
    intro y b v hy hv
    obtain ⟨z, hz, ez⟩ := oldAt_onto h hy
    rw [excess_le, ← hxo, ← (oldAt_pos h hz ez).1]
    exact (hvor v).1 ⟨v, subset_convexHull ℝ _ (by rw [hS]; exact ⟨b, hv⟩), fun _ _ => rfl⟩ z (by rw [h.num]; exact hz)
  have hlim : LimitCell (seedPos xs) xs.length o l := by
    refine weak_limit hst.weak hst.left hR (fun w hw => ?_) (fun w hw => ?_) (fun y hy hyo => ?_) near
    · obtain ⟨jj, y, ob, rfl, g2, g3, g4, g5, g6, g7, -⟩ := hused w hw
      rw [g7]
      exact ⟨g6, fun e => g4 (oldAt_inj h g3 ha (e ▸ g5) m1)⟩
    · obtain ⟨jj, y, ob, rfl, g2, g3, g4, g5, g6, g7, g8⟩ := hused w hw
      have hd := hne g3 g4
      refine ⟨?_, fun z => ?_⟩
      · rw [cellPl_pt (show (loc.map T.P.pts)[jj]? = some (T.P.pts y) by rw [List.getElem?_map, g2]; rfl)]
        exact bisectorNormal_norm hd
      · rw [hhgt z g2, bisector_val hd, g7, ← g8, ← hxo]
        unfold excess
        rw [← g8, ← hxo]
        field_simp
    · obtain ⟨z, hz, ez⟩ := oldAt_onto h hy
      rw [← (oldAt_pos h hz ez).1, ← hxo]
      exact lt_of_le_of_ne (euclid_nonneg 3 _ _) (Ne.symm (hne hz fun e => hyo (by rw [e, m1] at ez; exact (Option.some.inj ez).symm)))
  refine ⟨hlim, ?_⟩
  intro c q hq
  obtain ⟨b, v, hv, -, hxv, hw, -, ow, e1, e2⟩ := cd hq
  subst hxv
  obtain ⟨o1, o2⟩ := cornerOwner_spec (ghost := ghostSeed T xs) (pts := T.P.pts) (v := q.x) (rv := Real.sqrt (distSq3 q.x (T.P.pts a))) loc none
  obtain ⟨g1, g2, g3⟩ := (o1 ow e1).resolve_left (by simp)
  have hlt := hloc ow g1
  obtain ⟨ob, sb, n1, n2, n3, n4⟩ := meshSeed_spec h hlt
  rw [e2] at n1
  obtain rfl := Option.some.inj n1
  have onx := fun j hj => hlim.on c q j hq hj
  have rg := fun j hj => (hlim.range (j := j) hq hj).1
  refine ⟨⟨sb, n3, (ghostSeed_false n2).1 g2⟩, ?_, ?_⟩
  · rw [sqrt_distSq3, sqrt_distSq3, hxo, (oldAt_pos h hlt e2).1] at g3
    rw [excess_zero]
    rcases hvc o (q.seeds 0) (q.seeds 1) (q.seeds 2) q.owner q.x ⟨s, m3, hreg⟩ (rg 0 (by omega)) (rg 1 (by omega)) (rg 2 (by omega)) (oldAt_pos h hlt e2).2 (excess_zero.1 (onx 0 (by omega))) (excess_zero.1 (onx 1 (by omega)))
      (excess_zero.1 (onx 2 (by omega))) (fun u u0 u1 u2 => hlim.alone c q u hq fun j hj => by
        rw [excess_zero]
        interval_cases j
        · exact u0
        · exact u1
        · exact u2) (fun u hu => excess_le.1 (hlim.near c q u hq hu)) with g | g
    · exact g
    · rw [abs_lt] at g3
      linarith [g3.1]
  · intro y sy hy hry h0
    have hylt := (List.getElem?_eq_some_iff.1 hy).1
    obtain ⟨z, hz, ez⟩ := oldAt_onto h hylt
    obtain ⟨oz, sz, p1, p2, p3, p4⟩ := meshSeed_spec h hz
    rw [ez] at p1
    obtain rfl := Option.some.inj p1
    rw [hy] at p3
    obtain rfl := Option.some.inj p3
    rw [excess_zero] at h0
    have hzloc : z ∈ loc := by
      refine h3 z (by rw [h.num]; exact hz) rfl ?_
      rw [euclid_comm]
      have h6 := euclid_triangle 3 (T.P.pts z) q.x (T.P.pts a)
      rw [euclid_comm 3 (T.P.pts z) q.x, (oldAt_pos h hz ez).1, ← h0, hxo, ← (oldAt_pos h hz ez).1] at h6
      have h7 := hrgm (fun u hu => ?_) q.x (fun y hy => excess_le.1 (hlim.near c q y hq hy))
      · rw [hxo]
        linarith
      · obtain ⟨p, hp, e⟩ := (hvor u).2 fun y hy => by
          rw [h.num] at hy
          obtain ⟨oy, sy, ey, -⟩ := oldAt_spec h hy
          rw [hxo, (oldAt_pos h hy ey).1]
          exact hu oy (oldAt_pos h hy ey).2
        rw [hS] at hp
        have hin := convexHull_min (t := {v | distSq3 v (T.P.pts a) ≤ farthestSq (T.P.pts a) P P.num}) (by
          rintro v ⟨b, hv⟩
          exact farthestSq_le (x := T.P.pts a) P.num b (hwf.fin b (live_of_pos hv)) v hv) (ball3_convex _ _) hp
        have h5 : euclid 3 u (seedPos xs o) ≤ Real.sqrt (farthestSq (T.P.pts a) P P.num) := by
          rw [← hxo, ← sqrt_distSq3]
          refine Real.sqrt_le_sqrt ?_
          have : distSq3 u (T.P.pts a) = distSq3 p (T.P.pts a) := by unfold distSq3; rw [e 0 (by omega), e 1 (by omega), e 2 (by omega)]
          rw [this]
          exact hin
        linarith
    obtain ⟨ow', f1, f2⟩ := o2 z (Or.inr ⟨hzloc, (ghostSeed_false p2).2 hry, by
      rw [sqrt_distSq3, sqrt_distSq3, hxo, (oldAt_pos h hz ez).1, ← h0, sub_self, abs_zero]
      norm_num⟩)
    rw [e1] at f1
    obtain rfl := Option.some.inj f1
    rw [newRank_eq h hlt e2, newRank_eq h hz ez]
    exact f2

end VoroCrust
