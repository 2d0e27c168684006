import Verif.Props.MeshVoronoi
import Verif.Props.RingWalk
import Verif.Props.CellGap

/-!
# Cells with several corners at one place

A Voronoi cell in which more than three bisectors go through a corner is the limit of cells in which only three do: the other seeds are moved away from the seed of the cell a little.
-/

namespace VoroCrust

open Classical Filter Topology

/-! ## More about exact cells -/

section

variable {pts : Nat → Nat → ℝ} {n i : Nat} {l : List MeshCorner}

/-- How far a point is from a corner of the cell: zero there, negative elsewhere in the cell. -/
noncomputable def peak (pts : Nat → Nat → ℝ) (i : Nat) (q : MeshCorner) (z : Nat → ℝ) : ℝ := excess pts i (q.seeds 0) z + excess pts i (q.seeds 1) z + excess pts i (q.seeds 2) z

theorem peak_affine (pts : Nat → Nat → ℝ) (i : Nat) (q : MeshCorner) : AffineFn (peak pts i q) := ((excess_affine pts i _).add (excess_affine pts i _)).add (excess_affine pts i _)

theorem peak_congr {u v : Nat → ℝ} (h : ∀ k, k < 3 → u k = v k) (pts : Nat → Nat → ℝ) (i : Nat) (q : MeshCorner) : peak pts i q u = peak pts i q v := by
  unfold peak
  rw [excess_congr h, excess_congr h, excess_congr h]

theorem peak_zero {q : MeshCorner} {z : Nat → ℝ} (hle : ∀ j, j < 3 → excess pts i (q.seeds j) z ≤ 0) (h0 : 0 ≤ peak pts i q z) : ∀ j, j < 3 → excess pts i (q.seeds j) z = 0 := by
  have h1 := hle 0 (by omega)
  have h2 := hle 1 (by omega)
  have h3 := hle 2 (by omega)
  unfold peak at h0
  intro j hj
  interval_cases j <;> linarith

theorem peak_on {q : MeshCorner} {z : Nat → ℝ} (h : ∀ j, j < 3 → excess pts i (q.seeds j) z = 0) : peak pts i q z = 0 := by
  unfold peak
  rw [h 0 (by omega), h 1 (by omega), h 2 (by omega)]
  norm_num

theorem ExactCell.peak_neg (h : ExactCell pts n i l) {c c' : Nat} {q q' : MeshCorner} (hq : l[c]? = some q) (hq' : l[c']? = some q') (hne : c ≠ c') : peak pts i q q'.x < 0 := by
  by_contra h0
  exact hne (h.same hq hq' (peak_zero (fun j hj => h.near c' q' _ hq' (h.range c q j hq hj).1) (not_lt.1 h0)))

/-- A corner of a face that is not below its two neighbours on the face is not below any point of the face. -/
theorem ExactCell.top (h : ExactCell pts n i l) {c j : Nat} {q q1 q2 : MeshCorner} (hq : l[c]? = some q) (hj : j < 3) (h1 : l[q.nbr j]? = some q1) (h2 : l[q.nbr ((j + 1) % 3)]? = some q2) {g : (Nat → ℝ) → ℝ}
    (hg : ∃ p : MeshCorner, g = peak pts i p) (l1 : g q1.x ≤ g q.x) (l2 : g q2.x ≤ g q.x) {z : Nat → ℝ} (hz : ∀ y, y < n → excess pts i y z ≤ 0) (hz0 : excess pts i (q.seeds j) z = 0) : g z ≤ g q.x := by
  obtain ⟨p, rfl⟩ := hg
  obtain ⟨k, x, hk, hcomb⟩ := h.cone c q z hq fun j' hj' => hz _ (h.range c q j' hq hj').1
  have n3 : k ((j + 2) % 3) = 0 := by
    refine (hk ((j + 2) % 3) (by omega)).2.2 ?_
    rw [show ((j + 2) % 3 + 1) % 3 = j by omega]
    exact hz0
  have hgc : peak pts i p z - peak pts i p q.x = k 0 * (peak pts i p (x 0) - peak pts i p q.x) + k 1 * (peak pts i p (x 1) - peak pts i p q.x) + k 2 * (peak pts i p (x 2) - peak pts i p q.x) := by
    have c0 := excess_comb (pts := pts) (i := i) (y := p.seeds 0) hcomb
    have c1 := excess_comb (pts := pts) (i := i) (y := p.seeds 1) hcomb
    have c2 := excess_comb (pts := pts) (i := i) (y := p.seeds 2) hcomb
    unfold peak
    linarith
  obtain ⟨-, ⟨r1, e1, e2⟩, -⟩ := hk j hj
  rw [h1] at e1
  obtain rfl := Option.some.inj e1
  obtain ⟨-, ⟨r2, f1, f2⟩, -⟩ := hk ((j + 1) % 3) (by omega)
  rw [h2] at f1
  obtain rfl := Option.some.inj f1
  rw [e2] at l1
  rw [f2] at l2
  have p1 := mul_nonneg (hk j hj).1 (sub_nonneg.2 l1)
  have p2 := mul_nonneg (hk ((j + 1) % 3) (by omega)).1 (sub_nonneg.2 l2)
  interval_cases j <;> norm_num at n3 p1 p2 <;> rw [n3] at hgc <;> linarith

theorem excess_between {y : Nat} {u v w : Nat → ℝ} {s : ℝ} (h : ∀ d, d < 3 → w d = u d + s * (v d - u d)) : excess pts i y w = (1 - s) * excess pts i y u + s * excess pts i y v := by
  have e : ∀ d, d < 3 → w d = ((1 - s) • u + s • v) d := fun d hd => by
    rw [h d hd]
    simp only [Pi.add_apply, Pi.smul_apply, smul_eq_mul]
    ring
  rw [excess_congr e, excess_affine pts i y u v (1 - s) s (by ring)]

/-- At most two corners are on the same two bisectors. -/
theorem ExactCell.edge_two (h : ExactCell pts n i l) {nb e : Nat} (hne : nb ≠ e) {a b c : Nat} {qa qb qc : MeshCorner} (ha : l[a]? = some qa) (hb : l[b]? = some qb) (hc : l[c]? = some qc) (hab : a ≠ b) (hac : a ≠ c) (hbc : b ≠ c)
    (na : ∃ j, j < 3 ∧ qa.seeds j = nb) (nb' : ∃ j, j < 3 ∧ qb.seeds j = nb) (nc : ∃ j, j < 3 ∧ qc.seeds j = nb) (ea : ∃ j, j < 3 ∧ qa.seeds j = e) (eb : ∃ j, j < 3 ∧ qb.seeds j = e) (ec : ∃ j, j < 3 ∧ qc.seeds j = e) : False := by
  obtain ⟨j1, hj1, e1⟩ := na
  obtain ⟨j2, hj2, e2⟩ := ea
  have hjj : j1 ≠ j2 := fun g => hne (by rw [← e1, ← e2, g])
  have onv : ∀ {b : Nat} {q : MeshCorner} {y : Nat}, l[b]? = some q → (∃ j, j < 3 ∧ q.seeds j = y) → excess pts i y q.x = 0 := fun {b q y} hq hj => by
    obtain ⟨j, hj, rfl⟩ := hj
    exact h.on b q j hq hj
  -- the one direction that stays on both
  obtain ⟨j0, hj0, h01, h02⟩ : ∃ j0, j0 < 3 ∧ (j0 + 1) % 3 ≠ j1 ∧ (j0 + 1) % 3 ≠ j2 := by
    interval_cases j1 <;> interval_cases j2 <;> first | exact absurd rfl hjj | exact ⟨0, by omega, by omega, by omega⟩ | exact ⟨1, by omega, by omega, by omega⟩ | exact ⟨2, by omega, by omega, by omega⟩
  obtain ⟨-, qx, -, hx, -⟩ := h.link a qa j0 ha hj0
  have ray : ∀ {b : Nat} {q : MeshCorner}, l[b]? = some q → (∃ j, j < 3 ∧ q.seeds j = nb) → (∃ j, j < 3 ∧ q.seeds j = e) → ∃ k : ℝ, 0 ≤ k ∧ ∀ d, d < 3 → q.x d - qa.x d = k * (qx.x d - qa.x d) := by
    intro b q hq hn he
    obtain ⟨k, x, hk, hcomb⟩ := h.cone a qa q.x ha fun j hj => h.near b q _ hq (h.range a qa j ha hj).1
    have z1 : ∀ j, j < 3 → j ≠ j0 → k j = 0 := fun j hj hjn => by
      refine (hk j hj).2.2 ?_
      have : (j + 1) % 3 = j1 ∨ (j + 1) % 3 = j2 := by omega
      rcases this with g | g
      · rw [g, e1]; exact onv hq hn
      · rw [g, e2]; exact onv hq he
    obtain ⟨k0, ⟨q', g1, g2⟩, -⟩ := hk j0 hj0
    rw [hx] at g1
    obtain rfl := Option.some.inj g1
    refine ⟨k j0, k0, fun d hd => ?_⟩
    rw [hcomb d hd, g2]
    interval_cases j0
    · rw [z1 1 (by omega) (by omega), z1 2 (by omega) (by omega)]; ring
    · rw [z1 0 (by omega) (by omega), z1 2 (by omega) (by omega)]; ring
    · rw [z1 0 (by omega) (by omega), z1 1 (by omega) (by omega)]; ring
  obtain ⟨kb, hkb, rb⟩ := ray hb nb' eb
  obtain ⟨kc, hkc, rc⟩ := ray hc nc ec
  have pos : ∀ {b : Nat} {q : MeshCorner} {k : ℝ}, l[b]? = some q → a ≠ b → 0 ≤ k → (∀ d, d < 3 → q.x d - qa.x d = k * (qx.x d - qa.x d)) → 0 < k := fun {b q k} hq hn hk hr => by
    refine lt_of_le_of_ne hk fun g => hn (h.place ha hq fun d hd => ?_)
    have := hr d hd
    rw [← g] at this
    linarith
  have kb0 := pos hb hab hkb rb
  have kc0 := pos hc hac hkc rc
  -- the nearer of the two is between
  have mid : ∀ {b c : Nat} {qb qc : MeshCorner} {kb kc : ℝ}, l[b]? = some qb → l[c]? = some qc → a ≠ b → b ≠ c → (∃ j, j < 3 ∧ qb.seeds j = nb) → (∃ j, j < 3 ∧ qc.seeds j = nb) → (∃ j, j < 3 ∧ qb.seeds j = e) → (∃ j, j < 3 ∧ qc.seeds j = e) → 0 < kb → 0 < kc →
      (∀ d, d < 3 → qb.x d - qa.x d = kb * (qx.x d - qa.x d)) → (∀ d, d < 3 → qc.x d - qa.x d = kc * (qx.x d - qa.x d)) → kb ≤ kc → False := by
    intro b c qb qc kb kc hb hc hab hbc nb1 nc1 eb1 ec1 kb0 kc0 rb rc hle
    have hbt : ∀ d, d < 3 → qb.x d = qa.x d + kb / kc * (qc.x d - qa.x d) := fun d hd => by
      rw [rc d hd, ← mul_assoc, div_mul_cancel₀ _ kc0.ne', ← rb d hd]
      ring
    obtain ⟨m1, hm1, f1⟩ := nb1
    obtain ⟨m2, hm2, f2⟩ := eb1
    have hmm : m1 ≠ m2 := fun g => hne (by rw [← f1, ← f2, g])
    obtain ⟨m3, hm3, h31, h32⟩ : ∃ m3, m3 < 3 ∧ m3 ≠ m1 ∧ m3 ≠ m2 := by
      interval_cases m1 <;> interval_cases m2 <;> first | exact absurd rfl hmm | exact ⟨0, by omega, by omega, by omega⟩ | exact ⟨1, by omega, by omega, by omega⟩ | exact ⟨2, by omega, by omega, by omega⟩
    have neg : ∀ {u : Nat} {q : MeshCorner}, l[u]? = some q → b ≠ u → (∃ j, j < 3 ∧ q.seeds j = nb) → (∃ j, j < 3 ∧ q.seeds j = e) → excess pts i (qb.seeds m3) q.x < 0 := fun {u q} hu hbu hn he => by
      refine lt_of_le_of_ne (h.near u q _ hu (h.range b qb m3 hb hm3).1) fun g => hbu (h.same hb hu fun j hj => ?_)
      have : j = m1 ∨ j = m2 ∨ j = m3 := by omega
      rcases this with rfl | rfl | rfl
      · rw [f1]; exact onv hu hn
      · rw [f2]; exact onv hu he
      · exact g
    have na := neg ha (Ne.symm hab) ⟨j1, hj1, e1⟩ ⟨j2, hj2, e2⟩
    have nc := neg hc hbc nc1 ec1
    have h0 := h.on b qb m3 hb hm3
    rw [excess_between hbt] at h0
    have hs0 : 0 < kb / kc := div_pos kb0 kc0
    have hs1 : kb / kc ≤ 1 := (div_le_one kc0).2 hle
    nlinarith
  rcases le_total kb kc with g | g
  · exact mid hb hc hab hbc nb' nc eb ec kb0 kc0 rb rc g
  · exact mid hc hb hac (Ne.symm hbc) nc nb' ec eb kc0 kb0 rc rb g

end

/-! ## Limits -/

/-- The other seeds moved away from the seed `i`. -/
noncomputable def stretch (pts : Nat → Nat → ℝ) (i : Nat) (lam : Nat → ℝ) : Nat → Nat → ℝ := fun y d => pts i d + lam y * (pts y d - pts i d)

theorem excess_stretch (pts : Nat → Nat → ℝ) (i : Nat) (lam : Nat → ℝ) (y : Nat) (z : Nat → ℝ) : excess (stretch pts i lam) i y z = lam y * (excess pts i y z + (1 - lam y) * distSq3 (pts y) (pts i)) := by
  unfold excess distSq3 stretch
  ring

/-- The corners at other places. -/
def moved (l : List MeshCorner) (X : Nat → Nat → ℝ) : List MeshCorner := l.mapIdx fun c q => ⟨X c, q.nbr, q.seeds, q.owner⟩

theorem moved_get {l : List MeshCorner} {X : Nat → Nat → ℝ} {c : Nat} {q' : MeshCorner} : (moved l X)[c]? = some q' ↔ ∃ q, l[c]? = some q ∧ q' = ⟨X c, q.nbr, q.seeds, q.owner⟩ := by
  unfold moved
  rw [List.getElem?_mapIdx, Option.map_eq_some_iff]
  constructor
  · rintro ⟨q, h1, h2⟩; exact ⟨q, h1, h2.symm⟩
  · rintro ⟨q, h1, h2⟩; exact ⟨q, h1, h2.symm⟩

theorem moved_some {l : List MeshCorner} {X : Nat → Nat → ℝ} {c : Nat} {q : MeshCorner} (h : l[c]? = some q) : (moved l X)[c]? = some ⟨X c, q.nbr, q.seeds, q.owner⟩ := moved_get.2 ⟨q, h, rfl⟩

/-- The cell of seed `i` is the Voronoi cell, and its graph of corners that of a limit of exact cells. -/
structure LimitCell (pts : Nat → Nat → ℝ) (n i : Nat) (l : List MeshCorner) : Prop where
  near : ∀ (c : Nat) (q : MeshCorner) (y : Nat), l[c]? = some q → y < n → excess pts i y q.x ≤ 0
  on : ∀ (c : Nat) (q : MeshCorner) (j : Nat), l[c]? = some q → j < 3 → excess pts i (q.seeds j) q.x = 0
  alone : ∀ (c : Nat) (q : MeshCorner) (z : Nat → ℝ), l[c]? = some q → (∀ j, j < 3 → excess pts i (q.seeds j) z = 0) → ∀ d, d < 3 → z d = q.x d
  bound : ∀ z, (∀ (c : Nat) (q : MeshCorner) (j : Nat), l[c]? = some q → j < 3 → excess pts i (q.seeds j) z ≤ 0) → ∃ p ∈ convexHull ℝ {v | ∃ (c : Nat) (q : MeshCorner), l[c]? = some q ∧ q.x = v}, ∀ k, k < 3 → p k = z k
  limit : ∃ (lam : Nat → Nat → ℝ) (X : Nat → Nat → Nat → ℝ), (∀ᶠ k in atTop, (∀ y, 1 ≤ lam k y) ∧ ExactCell (stretch pts i (lam k)) n i (moved l (X k))) ∧
    (∀ (c : Nat) (q : MeshCorner) (j : Nat), l[c]? = some q → j < 3 → Tendsto (fun k => lam k (q.seeds j)) atTop (𝓝 1)) ∧ ∀ (c : Nat) (q : MeshCorner) (d : Nat), l[c]? = some q → d < 3 → Tendsto (fun k => X k c d) atTop (𝓝 (q.x d))

variable {pts : Nat → Nat → ℝ} {n i : Nat} {l : List MeshCorner}

theorem LimitCell.some_exact (h : LimitCell pts n i l) : ∃ (lam : Nat → ℝ) (X : Nat → Nat → ℝ), ExactCell (stretch pts i lam) n i (moved l X) := by
  obtain ⟨lam, X, h1, -⟩ := h.limit
  obtain ⟨k, hk⟩ := h1.exists
  exact ⟨lam k, X k, hk.2⟩

theorem LimitCell.range (h : LimitCell pts n i l) {c j : Nat} {q : MeshCorner} (hq : l[c]? = some q) (hj : j < 3) : q.seeds j < n ∧ q.seeds j ≠ i := by
  obtain ⟨lam, X, he⟩ := h.some_exact
  exact he.range c ⟨X c, q.nbr, q.seeds, q.owner⟩ j (moved_some hq) hj

theorem LimitCell.diff (h : LimitCell pts n i l) {c j j' : Nat} {q : MeshCorner} (hq : l[c]? = some q) (hj : j < 3) (hj' : j' < 3) (e : q.seeds j = q.seeds j') : j = j' := by
  obtain ⟨lam, X, he⟩ := h.some_exact
  exact he.diff c ⟨X c, q.nbr, q.seeds, q.owner⟩ j j' (moved_some hq) hj hj' e

theorem LimitCell.link (h : LimitCell pts n i l) {c j : Nat} {q : MeshCorner} (hq : l[c]? = some q) (hj : j < 3) :
    ∃ q' j', l[q.nbr j]? = some q' ∧ j' < 3 ∧ q'.nbr j' = c ∧ q'.seeds j' = q.seeds ((j + 2) % 3) ∧ q'.seeds ((j' + 2) % 3) = q.seeds j := by
  obtain ⟨lam, X, he⟩ := h.some_exact
  obtain ⟨-, q1, j', h1, h2, h3, h4, h5⟩ := he.link c ⟨X c, q.nbr, q.seeds, q.owner⟩ j (moved_some hq) hj
  obtain ⟨q', e1, rfl⟩ := moved_get.1 h1
  exact ⟨q', j', e1, h2, h3, h4, h5⟩

theorem LimitCell.span (h : LimitCell pts n i l) {z : Nat → ℝ} (hz : ∀ y, y < n → excess pts i y z ≤ 0) : ∃ p ∈ convexHull ℝ {v | ∃ (c : Nat) (q : MeshCorner), l[c]? = some q ∧ q.x = v}, ∀ k, k < 3 → p k = z k :=
  h.bound z fun _ _ _ hq hj => hz _ (h.range hq hj).1

/-- The peak of a corner is at its place only. -/
theorem LimitCell.peak_place (h : LimitCell pts n i l) {c : Nat} {q : MeshCorner} (hq : l[c]? = some q) {z : Nat → ℝ} (hz : ∀ y, y < n → excess pts i y z ≤ 0) (h0 : 0 ≤ peak pts i q z) : ∀ d, d < 3 → z d = q.x d :=
  h.alone c q z hq (peak_zero (fun _ hj => hz _ (h.range hq hj).1) h0)

theorem LimitCell.peak_self (h : LimitCell pts n i l) {c : Nat} {q : MeshCorner} (hq : l[c]? = some q) : peak pts i q q.x = 0 := peak_on fun j hj => h.on c q j hq hj

/-- The hull of the corners is inside all bisectors. -/
theorem LimitCell.hull_le (h : LimitCell pts n i l) {p : Nat → ℝ} (hp : p ∈ convexHull ℝ {v | ∃ (c : Nat) (q : MeshCorner), l[c]? = some q ∧ q.x = v}) {y : Nat} (hy : y < n) : excess pts i y p ≤ 0 := by
  have : convexHull ℝ {v | ∃ (c : Nat) (q : MeshCorner), l[c]? = some q ∧ q.x = v} ⊆ {v | excess pts i y v ≤ 0} := convexHull_min (by
    rintro v ⟨c, q, hq, rfl⟩
    exact h.near c q y hq hy) (by
    intro u hu v hv s t hs ht hst
    rw [Set.mem_ofPred_eq] at hu hv ⊢
    rw [excess_affine pts i y u v s t hst]
    nlinarith)
  exact this hp

/-- The only common point of the bisectors of four seeds, if no seed is nearer, is a corner of every cell that it belongs to. -/
theorem LimitCell.corner (h : LimitCell pts n i l) {s a b c : Nat} (hs : s < n) (ha : a < n) (hb : b < n) (hc : c < n) {z : Nat → ℝ} (hz : ∀ y, y < n → excess pts i y z ≤ 0)
    (zs : excess pts i s z = 0) (za : excess pts s a z = 0) (zb : excess pts s b z = 0) (zc : excess pts s c z = 0) (hone : ∀ u, excess pts s a u = 0 → excess pts s b u = 0 → excess pts s c u = 0 → ∀ d, d < 3 → u d = z d) :
    ∃ (k : Nat) (q : MeshCorner), l[k]? = some q ∧ ∀ d, d < 3 → q.x d = z d := by
  obtain ⟨p, hp, e⟩ := h.span hz
  have sw : ∀ y u, excess pts i y u = excess pts i s u + excess pts s y u := fun y u => by unfold excess; ring
  have h1 := hull_zero ((((excess_affine pts i a).add (excess_affine pts i b)).add (excess_affine pts i c)).add (excess_affine pts i s)) (by
    rintro v ⟨k, q, hq, rfl⟩
    have := h.near k q a hq ha
    have := h.near k q b hq hb
    have := h.near k q c hq hc
    have := h.near k q s hq hs
    linarith) hp (by rw [excess_congr e, excess_congr e, excess_congr e, excess_congr e, sw a, sw b, sw c, za, zb, zc, zs]; norm_num)
  obtain ⟨v, ⟨k, q, hq, rfl⟩, hv⟩ := convexHull_nonempty_iff.1 ⟨p, h1⟩
  have n1 := h.near k q a hq ha
  have n2 := h.near k q b hq hb
  have n3 := h.near k q c hq hc
  have n4 := h.near k q s hq hs
  have s1 := sw a q.x
  have s2 := sw b q.x
  have s3 := sw c q.x
  exact ⟨k, q, hq, hone q.x (by linarith) (by linarith) (by linarith)⟩

end VoroCrust
