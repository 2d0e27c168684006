import Verif.Props.LimitCell

/-!
# Faces of cells with several corners at one place
-/

namespace VoroCrust

open Classical Filter Topology

variable {pts : Nat → Nat → ℝ} {n i : Nat} {l : List MeshCorner}

theorem excess_tendsto {y : Nat} {u : Nat → Nat → ℝ} {v : Nat → ℝ} (h : ∀ d, d < 3 → Tendsto (fun k => u k d) atTop (𝓝 (v d))) : Tendsto (fun k => excess pts i y (u k)) atTop (𝓝 (excess pts i y v)) := by
  have h0 := h 0 (by omega)
  have h1 := h 1 (by omega)
  have h2 := h 2 (by omega)
  unfold excess distSq3
  exact ((((h0.sub_const _).mul (h0.sub_const _)).add ((h1.sub_const _).mul (h1.sub_const _))).add ((h2.sub_const _).mul (h2.sub_const _))).sub ((((h0.sub_const _).mul (h0.sub_const _)).add ((h1.sub_const _).mul (h1.sub_const _))).add ((h2.sub_const _).mul (h2.sub_const _)))

theorem excess_stretch_tendsto {y : Nat} {lam : Nat → Nat → ℝ} (hl : Tendsto (fun k => lam k y) atTop (𝓝 1)) {u : Nat → Nat → ℝ} {v : Nat → ℝ} (h : ∀ d, d < 3 → Tendsto (fun k => u k d) atTop (𝓝 (v d))) :
    Tendsto (fun k => excess (stretch pts i (lam k)) i y (u k)) atTop (𝓝 (excess pts i y v)) := by
  have h1 := hl.mul ((excess_tendsto (pts := pts) (i := i) (y := y) h).add (((tendsto_const_nhds (x := (1 : ℝ))).sub hl).mul_const (distSq3 (pts y) (pts i))))
  simp only [sub_self, zero_mul, add_zero, one_mul] at h1
  refine h1.congr fun k => ?_
  rw [excess_stretch]

/-- The ring of corners round a face. -/
theorem LimitCell.ring (h : LimitCell pts n i l) {C : Cells} (hC : C i = some l) {nb : Nat} (hex : ∃ (c : Nat) (q : MeshCorner) (j : Nat), l[c]? = some q ∧ j < 3 ∧ q.seeds j = nb) :
    ∃ (m : Nat) (cyc e : Nat → Nat), 3 ≤ m ∧ m ≤ l.length ∧ FaceCycle C i nb m cyc ∧ (∀ t t', t < m → t' < m → cyc t = cyc t' → t = t') ∧
      (∀ (c : Nat) (q : MeshCorner) (j : Nat), l[c]? = some q → j < 3 → q.seeds j = nb → ∃ t, t < m ∧ cyc t = c) ∧
      (∀ t t', t < m → t' < m → e t = e t' → t = t') ∧
      ∀ t, t < m → ∃ (q q' : MeshCorner), l[cyc t]? = some q ∧ l[cyc (t + 1)]? = some q' ∧ e t < n ∧ e t ≠ i ∧ e t ≠ nb ∧ (∃ j, j < 3 ∧ q.seeds j = e t) ∧ ∃ j, j < 3 ∧ q'.seeds j = e t := by
  obtain ⟨lam, X, he⟩ := h.some_exact
  obtain ⟨c0, q0, j0, g1, g2, g3⟩ := hex
  obtain ⟨m, cyc, h1, h2, h3, h4, h5, h6⟩ := he.cycle (C := fun j => if j = i then some (moved l X) else C j) (if_pos rfl) (nb := nb) ⟨c0, ⟨X c0, q0.nbr, q0.seeds, q0.owner⟩, j0, moved_some g1, g2, g3⟩
  have hcor : ∀ {c : Nat} {q' : MeshCorner}, cornerAt (fun j => if j = i then some (moved l X) else C j) i c = some q' ↔ ∃ q, l[c]? = some q ∧ q' = ⟨X c, q.nbr, q.seeds, q.owner⟩ := fun {c q'} => by
    rw [cornerAt_eq]
    simp only [if_pos]
    constructor
    · rintro ⟨l', e1, e2⟩
      obtain rfl := Option.some.inj e1
      exact moved_get.1 e2
    · intro hq
      exact ⟨_, rfl, moved_get.2 hq⟩
  have hcor' : ∀ {c : Nat} {q : MeshCorner}, cornerAt C i c = some q ↔ l[c]? = some q := fun {c q} => by
    rw [cornerAt_eq]
    constructor
    · rintro ⟨l', e1, e2⟩
      rw [hC] at e1
      obtain rfl := Option.some.inj e1
      exact e2
    · intro hq
      exact ⟨l, hC, hq⟩
  have hF : FaceCycle C i nb m cyc := by
    refine ⟨fun c q j hc hq hj => ?_, fun t ht => ?_, h3.open_, h3.close⟩
    · exact h3.first c ⟨X c, q.nbr, q.seeds, q.owner⟩ j hc (hcor.2 ⟨q, hcor'.1 hq, rfl⟩) hj
    · obtain ⟨q, j, e1, e2, e3, e4, e5⟩ := h3.step t ht
      obtain ⟨q', f1, rfl⟩ := hcor.1 e1
      exact ⟨q', j, hcor'.2 f1, e2, e3, e4, e5⟩
  have hsel : ∀ t, ∃ e, t < m → ∃ (q q' : MeshCorner), l[cyc t]? = some q ∧ l[cyc (t + 1)]? = some q' ∧ e < n ∧ e ≠ i ∧ e ≠ nb ∧ (∃ j, j < 3 ∧ q.seeds j = e) ∧ ∃ j, j < 3 ∧ q'.seeds j = e := fun t => by
    by_cases ht : t < m
    · obtain ⟨q, q', e, f1, f2, f3, f4, f5, f6, f7⟩ := h6 t ht
      obtain ⟨r, r1, rfl⟩ := moved_get.1 f1
      obtain ⟨r', r2, rfl⟩ := moved_get.1 f2
      exact ⟨e, fun _ => ⟨r, r', r1, r2, f3, f4, f5, f6, f7⟩⟩
    · exact ⟨0, fun g => absurd g ht⟩
  choose e hE using hsel
  refine ⟨m, cyc, e, h1, by rw [show l.length = (moved l X).length by simp [moved]]; exact h2, hF, h4, ?_, ?_, hE⟩
  · intro c q j hq hj hn
    exact h5 c ⟨X c, q.nbr, q.seeds, q.owner⟩ j (moved_some hq) hj hn
  · intro t t' ht ht' hee
    by_contra hne
    have hmod : ∀ s, s < m → cyc (s + 1) = cyc ((s + 1) % m) ∧ (s + 1) % m < m ∧ (s + 1) % m = if s + 1 = m then 0 else s + 1 := fun s hs => by
      by_cases g : s + 1 = m
      · rw [if_pos g, g, Nat.mod_self]; exact ⟨h3.close, by omega, rfl⟩
      · rw [if_neg g, Nat.mod_eq_of_lt (by omega)]; exact ⟨rfl, by omega, rfl⟩
    have hnbAt : ∀ s, s < m → ∃ q, l[cyc s]? = some q ∧ ∃ j, j < 3 ∧ q.seeds j = nb := fun s hs => by
      obtain ⟨q, j, e1, e2, e3, -⟩ := hF.step s hs
      exact ⟨q, hcor'.1 e1, j, e2, e3⟩
    have key : ∀ a b c, a < m → b < m → c < m → a ≠ b → a ≠ c → b ≠ c → ∀ w, w ≠ nb → (∀ s ∈ [a, b, c], ∃ q, l[cyc s]? = some q ∧ ∃ j, j < 3 ∧ q.seeds j = w) → False := by
      intro a b c ha hb hc hab hac hbc w hw hon
      obtain ⟨qa, a1, a2⟩ := hon a (by simp)
      obtain ⟨qb, b1, b2⟩ := hon b (by simp)
      obtain ⟨qc, c1, c2⟩ := hon c (by simp)
      obtain ⟨ra, a3, a4⟩ := hnbAt a ha
      obtain ⟨rb, b3, b4⟩ := hnbAt b hb
      obtain ⟨rc, c3, c4⟩ := hnbAt c hc
      rw [a1] at a3
      rw [b1] at b3
      rw [c1] at c3
      obtain rfl := Option.some.inj a3
      obtain rfl := Option.some.inj b3
      obtain rfl := Option.some.inj c3
      exact he.edge_two (Ne.symm hw) (moved_some a1) (moved_some b1) (moved_some c1) (fun g => hab (h4 _ _ ha hb g)) (fun g => hac (h4 _ _ ha hc g)) (fun g => hbc (h4 _ _ hb hc g)) a4 b4 c4 a2 b2 c2
    obtain ⟨q, q', f1, f2, f3, f4, f5, f6, f7⟩ := hE t ht
    obtain ⟨r, r', r1, r2, r3, r4, r5, r6, r7⟩ := hE t' ht'
    obtain ⟨m1, m2, m3⟩ := hmod t ht
    obtain ⟨p1, p2, p3⟩ := hmod t' ht'
    rw [m1] at f2
    rw [p1] at r2
    by_cases hnx : (t + 1) % m = t'
    · refine key t t' ((t' + 1) % m) ht ht' p2 hne ?_ ?_ (e t) f5 ?_
      · split_ifs at m3 p3 <;> omega
      · split_ifs at m3 p3 <;> omega
      · intro s hs
        simp only [List.mem_cons, List.not_mem_nil, or_false] at hs
        rcases hs with rfl | rfl | rfl
        · exact ⟨q, f1, f6⟩
        · exact ⟨r, r1, by rw [hee]; exact r6⟩
        · exact ⟨r', r2, by rw [hee]; exact r7⟩
    · refine key t t' ((t + 1) % m) ht ht' m2 hne ?_ (Ne.symm hnx) (e t) f5 ?_
      · split_ifs at m3 p3 <;> omega
      · intro s hs
        simp only [List.mem_cons, List.not_mem_nil, or_false] at hs
        rcases hs with rfl | rfl | rfl
        · exact ⟨q, f1, f6⟩
        · exact ⟨r, r1, by rw [hee]; exact r6⟩
        · exact ⟨q', f2, f7⟩

/-- The corners of a ring at one place follow one another. -/
theorem LimitCell.apart (h : LimitCell pts n i l) {C : Cells} (hC : C i = some l) {nb m : Nat} {cyc : Nat → Nat} (hF : FaceCycle C i nb m cyc) (hinj : ∀ t t', t < m → t' < m → cyc t = cyc t' → t = t') {x y z w : Nat} (hxy : x < y) (hyz : y < z) (hzm : z < m) (hw : w < m)
    (hout : w < x ∨ z < w) {qx qy qz qw : MeshCorner} (hqx : l[cyc x]? = some qx) (hqy : l[cyc y]? = some qy) (hqz : l[cyc z]? = some qz) (hqw : l[cyc w]? = some qw) (same : ∀ d, d < 3 → qw.x d = qy.x d) (nx : ¬ ∀ d, d < 3 → qx.x d = qy.x d) (nz : ¬ ∀ d, d < 3 → qz.x d = qy.x d) : False := by
  obtain ⟨lam, X, hE, hlam, hX⟩ := h.limit
  have hcor' : ∀ {c : Nat} {q : MeshCorner}, cornerAt C i c = some q → l[c]? = some q := fun {c q} hq => by
    obtain ⟨l', e1, e2⟩ := cornerAt_eq.1 hq
    rw [hC] at e1
    obtain rfl := Option.some.inj e1
    exact e2
  have hex : ∀ {c : Nat} {q : MeshCorner} {y : Nat}, l[c]? = some q → y < n → excess pts i y q.x ≤ 0 := fun {c q y} hq hy => h.near c q y hq hy
  have neg : ∀ {c : Nat} {q : MeshCorner}, l[c]? = some q → (¬ ∀ d, d < 3 → q.x d = qy.x d) → peak pts i qw q.x < 0 := fun {c q} hq hn => by
    by_contra g
    exact hn fun d hd => by rw [h.peak_place hqw (fun y hy => hex hq hy) (not_lt.1 g) d hd, same d hd]
  have hy0 : peak pts i qw qy.x = 0 := by rw [← peak_congr same]; exact h.peak_self hqw
  have lim : ∀ {c : Nat} {q : MeshCorner}, l[c]? = some q → Tendsto (fun k => peak (stretch pts i (lam k)) i qw (X k c)) atTop (𝓝 (peak pts i qw q.x)) := fun {c q} hq => by
    unfold peak
    have hXc : ∀ d, d < 3 → Tendsto (fun k => X k c d) atTop (𝓝 (q.x d)) := fun d hd => hX c q d hq hd
    exact ((excess_stretch_tendsto (hlam _ _ 0 hqw (by omega)) hXc).add (excess_stretch_tendsto (hlam _ _ 1 hqw (by omega)) hXc)).add (excess_stretch_tendsto (hlam _ _ 2 hqw (by omega)) hXc)
  have l1 := (lim hqx).eventually_lt (lim hqy) (by rw [hy0]; exact neg hqx nx)
  have l2 := (lim hqz).eventually_lt (lim hqy) (by rw [hy0]; exact neg hqz nz)
  obtain ⟨k, ⟨⟨-, hk⟩, k1⟩, k2⟩ := ((hE.and l1).and l2).exists
  obtain ⟨t, ht, hmax⟩ := Finset.exists_max_image (Finset.Icc x z) (fun t => peak (stretch pts i (lam k)) i qw (X k (cyc t))) ⟨x, Finset.mem_Icc.2 ⟨le_refl _, by omega⟩⟩
  rw [Finset.mem_Icc] at ht
  have hy := hmax y (Finset.mem_Icc.2 ⟨by omega, by omega⟩)
  have htx : t ≠ x := fun g => by rw [g] at hy; exact absurd (lt_of_lt_of_le k1 hy) (lt_irrefl _)
  have htz : t ≠ z := fun g => by rw [g] at hy; exact absurd (lt_of_lt_of_le k2 hy) (lt_irrefl _)
  obtain ⟨q, j, e1, hj, e3, -, e5⟩ := hF.step t (by omega)
  have hq := hcor' e1
  obtain ⟨r, j', f1, hj', f3, -, f5⟩ := hF.step (t - 1) (by omega)
  have hr := hcor' f1
  rw [show t - 1 + 1 = t by omega] at f5
  -- the corner before
  obtain ⟨q2, j2, g1, g2, g3, g4, g5⟩ := h.link hr hj'
  rw [f5, hq] at g1
  obtain rfl := Option.some.inj g1
  have hjj : (j2 + 2) % 3 = j := h.diff hq (by omega) hj (by rw [g5, f3, e3])
  have hj2 : j2 = (j + 1) % 3 := by omega
  rw [hj2] at g3
  obtain ⟨qn, jn, o1, o2⟩ := hF.step (t + 1) (by omega)
  have hqn := hcor' o1
  have htop := hk.top (moved_some (X := X k) hq) hj (q1 := ⟨X k (cyc (t + 1)), qn.nbr, qn.seeds, qn.owner⟩) (by show (moved l (X k))[q.nbr j]? = _; rw [e5]; exact moved_some hqn)
    (q2 := ⟨X k (cyc (t - 1)), r.nbr, r.seeds, r.owner⟩) (by show (moved l (X k))[q.nbr ((j + 1) % 3)]? = _; rw [g3]; exact moved_some hr) ⟨qw, rfl⟩ (hmax (t + 1) (Finset.mem_Icc.2 ⟨by omega, by omega⟩)) (hmax (t - 1) (Finset.mem_Icc.2 ⟨by omega, by omega⟩))
    (z := X k (cyc w)) (fun y hy => hk.near (cyc w) ⟨X k (cyc w), qw.nbr, qw.seeds, qw.owner⟩ y (moved_some hqw) hy) (by
      obtain ⟨r', j3, p1, p2, p3, -⟩ := hF.step w hw
      have := hcor' p1
      rw [hqw] at this
      obtain rfl := Option.some.inj this
      show excess _ i (q.seeds j) _ = 0
      rw [e3, ← p3]
      exact hk.on (cyc w) ⟨X k (cyc w), qw.nbr, qw.seeds, qw.owner⟩ j3 (moved_some hqw) p2)
  have hz : peak (stretch pts i (lam k)) i qw (X k (cyc w)) = 0 := peak_on fun j hj => hk.on (cyc w) ⟨X k (cyc w), qw.nbr, qw.seeds, qw.owner⟩ j (moved_some hqw) hj
  rw [hz] at htop
  have hlt := hk.peak_neg (moved_some (X := X k) hqw) (moved_some (X := X k) hq) (fun g => by have := hinj _ _ hw (by omega) g; omega)
  exact absurd (lt_of_lt_of_le hlt htop) (lt_irrefl _)

end VoroCrust
