import Verif.Props.CellCase
import Verif.Props.VoroMesh

/-!
# The corners of an exact Voronoi cell

What `generate_3d_voronoi_mesh` needs of a cell: its corners are the points equidistant from four seeds, and the walk around each of its faces is one cycle through all corners of the face.
-/

namespace VoroCrust

open Classical

/-! ## A face of a convex hull -/

/-- Affine in the usual sense. -/
def AffineFn (g : (Nat → ℝ) → ℝ) : Prop := ∀ (u v : Nat → ℝ) (s t : ℝ), s + t = 1 → g (s • u + t • v) = s * g u + t * g v

/-- The points of a hull on a supporting plane are spanned by the points on that plane. -/
theorem hull_zero {S : Set (Nat → ℝ)} {g : (Nat → ℝ) → ℝ} (ha : AffineFn g) (hle : ∀ v ∈ S, g v ≤ 0) {p : Nat → ℝ} (hp : p ∈ convexHull ℝ S) (h0 : g p = 0) : p ∈ convexHull ℝ {v | v ∈ S ∧ g v = 0} := by
  have hz : ∀ q ∈ convexHull ℝ {v | v ∈ S ∧ g v = 0}, g q = 0 := fun q hq => by
    have : convexHull ℝ {v | v ∈ S ∧ g v = 0} ⊆ {q | g q = 0} := convexHull_min (fun v hv => hv.2) (by
      intro u hu v hv s t _ _ hst
      rw [Set.mem_setOf_eq] at hu hv ⊢
      rw [ha u v s t hst, hu, hv]
      ring)
    exact this hq
  have hK : convexHull ℝ S ⊆ {q | g q < 0 ∨ q ∈ convexHull ℝ {v | v ∈ S ∧ g v = 0}} := by
    refine convexHull_min (fun v hv => ?_) (convex_iff_forall_pos.2 fun u hu v hv s t hs ht hst => ?_)
    · rcases (hle v hv).lt_or_eq with q | q
      · exact Or.inl q
      · exact Or.inr (subset_convexHull ℝ _ ⟨hv, q⟩)
    · have e := ha u v s t hst
      rcases hu with hu | hu <;> rcases hv with hv | hv
      · left; rw [e]; nlinarith
      · left; rw [e, hz v hv]; nlinarith
      · left; rw [e, hz u hu]; nlinarith
      · exact Or.inr ((convex_convexHull ℝ _) hu hv hs.le ht.le hst)
  rcases hK hp with q | q
  · linarith
  · exact q

/-- How much farther `z` is from the seed `i` than from `y`, in squares. -/
noncomputable def excess (pts : Nat → Nat → ℝ) (i y : Nat) (z : Nat → ℝ) : ℝ := distSq3 z (pts i) - distSq3 z (pts y)

theorem excess_affine (pts : Nat → Nat → ℝ) (i y : Nat) : AffineFn (excess pts i y) := by
  intro u v s t hst
  obtain rfl : t = 1 - s := by linarith
  unfold excess distSq3
  simp only [Pi.add_apply, Pi.smul_apply, smul_eq_mul]
  ring

theorem AffineFn.add {f g : (Nat → ℝ) → ℝ} (hf : AffineFn f) (hg : AffineFn g) : AffineFn fun z => f z + g z := by
  intro u v s t hst
  show f _ + g _ = _
  rw [hf u v s t hst, hg u v s t hst]
  ring

theorem distSq3_congr {u v : Nat → ℝ} (h : ∀ k, k < 3 → u k = v k) (w : Nat → ℝ) : distSq3 u w = distSq3 v w := by
  unfold distSq3
  rw [h 0 (by omega), h 1 (by omega), h 2 (by omega)]

theorem excess_congr {u v : Nat → ℝ} (h : ∀ k, k < 3 → u k = v k) (pts : Nat → Nat → ℝ) (i y : Nat) : excess pts i y u = excess pts i y v := by
  unfold excess
  rw [distSq3_congr h, distSq3_congr h]

theorem excess_comb {pts : Nat → Nat → ℝ} {i y : Nat} {u z : Nat → ℝ} {l : Nat → ℝ} {x : Nat → Nat → ℝ} (h : ∀ k, k < 3 → z k - u k = l 0 * (x 0 k - u k) + l 1 * (x 1 k - u k) + l 2 * (x 2 k - u k)) :
    excess pts i y z - excess pts i y u = l 0 * (excess pts i y (x 0) - excess pts i y u) + l 1 * (excess pts i y (x 1) - excess pts i y u) + l 2 * (excess pts i y (x 2) - excess pts i y u) := by
  have e : ∀ v, excess pts i y v = 2 * (v 0 * (pts y 0 - pts i 0) + v 1 * (pts y 1 - pts i 1) + v 2 * (pts y 2 - pts i 2)) + (pts i 0 ^ 2 + pts i 1 ^ 2 + pts i 2 ^ 2 - pts y 0 ^ 2 - pts y 1 ^ 2 - pts y 2 ^ 2) := fun v => by
    unfold excess distSq3; ring
  have h0 := h 0 (by omega)
  have h1 := h 1 (by omega)
  have h2 := h 2 (by omega)
  have d : ∀ v w, excess pts i y v - excess pts i y w = 2 * ((v 0 - w 0) * (pts y 0 - pts i 0) + (v 1 - w 1) * (pts y 1 - pts i 1) + (v 2 - w 2) * (pts y 2 - pts i 2)) := fun v w => by rw [e, e]; ring
  rw [d, d, d, d, h0, h1, h2]
  ring

/-! ## Exact cells -/

/-- The cell of seed `i` is the Voronoi cell and its graph of corners that of the cell. -/
structure ExactCell (pts : Nat → Nat → ℝ) (n i : Nat) (l : List MeshCorner) : Prop where
  range : ∀ (c : Nat) (q : MeshCorner) (j : Nat), l[c]? = some q → j < 3 → q.seeds j < n ∧ q.seeds j ≠ i
  diff : ∀ (c : Nat) (q : MeshCorner) (j j' : Nat), l[c]? = some q → j < 3 → j' < 3 → q.seeds j = q.seeds j' → j = j'
  near : ∀ (c : Nat) (q : MeshCorner) (y : Nat), l[c]? = some q → y < n → excess pts i y q.x ≤ 0
  on : ∀ (c : Nat) (q : MeshCorner) (j : Nat), l[c]? = some q → j < 3 → excess pts i (q.seeds j) q.x = 0
  only : ∀ (c : Nat) (q : MeshCorner) (y : Nat), l[c]? = some q → y < n → y ≠ i → excess pts i y q.x = 0 → ∃ j, j < 3 ∧ q.seeds j = y
  inj : ∀ (c c' : Nat) (q q' : MeshCorner), l[c]? = some q → l[c']? = some q' → (∀ j, j < 3 → ∃ j', j' < 3 ∧ q.seeds j = q'.seeds j') → c = c'
  span : ∀ z, (∀ y, y < n → excess pts i y z ≤ 0) → ∃ p ∈ convexHull ℝ {v | ∃ (c : Nat) (q : MeshCorner), l[c]? = some q ∧ q.x = v}, ∀ k, k < 3 → p k = z k
  link : ∀ (c : Nat) (q : MeshCorner) (j : Nat), l[c]? = some q → j < 3 → q.nbr j ≠ c ∧ ∃ q' j', l[q.nbr j]? = some q' ∧ j' < 3 ∧ q'.nbr j' = c ∧ q'.seeds j' = q.seeds ((j + 2) % 3) ∧ q'.seeds ((j' + 2) % 3) = q.seeds j
  simple : ∀ (c : Nat) (q : MeshCorner) (j j' : Nat), l[c]? = some q → j < 3 → j' < 3 → q.nbr j = q.nbr j' → j = j'
  cone : ∀ (c : Nat) (q : MeshCorner) (z : Nat → ℝ), l[c]? = some q → (∀ j, j < 3 → excess pts i (q.seeds j) z ≤ 0) → ∃ (k : Nat → ℝ) (x : Nat → Nat → ℝ),
    (∀ j, j < 3 → 0 ≤ k j ∧ (∃ q', l[q.nbr j]? = some q' ∧ q'.x = x j) ∧ (excess pts i (q.seeds ((j + 1) % 3)) z = 0 → k j = 0)) ∧
      ∀ d, d < 3 → z d - q.x d = k 0 * (x 0 d - q.x d) + k 1 * (x 1 d - q.x d) + k 2 * (x 2 d - q.x d)

variable {pts : Nat → Nat → ℝ} {n i : Nat} {l : List MeshCorner}

/-- The hull of the corners is inside all bisectors. -/
theorem ExactCell.hull_le (h : ExactCell pts n i l) {p : Nat → ℝ} (hp : p ∈ convexHull ℝ {v | ∃ (c : Nat) (q : MeshCorner), l[c]? = some q ∧ q.x = v}) {y : Nat} (hy : y < n) : excess pts i y p ≤ 0 := by
  have : convexHull ℝ {v | ∃ (c : Nat) (q : MeshCorner), l[c]? = some q ∧ q.x = v} ⊆ {v | excess pts i y v ≤ 0} := convexHull_min (by
    rintro v ⟨c, q, hq, rfl⟩
    exact h.near c q y hq hy) (by
    intro u hu v hv s t hs ht hst
    rw [Set.mem_setOf_eq] at hu hv ⊢
    rw [excess_affine pts i y u v s t hst]
    nlinarith)
  exact this hp

/-- The face with the neighbour `y` is spanned by the corners that have it among their seeds. -/
theorem ExactCell.face_hull (h : ExactCell pts n i l) {y : Nat} (hy : y < n) (hyi : y ≠ i) {z : Nat → ℝ} :
    (∃ p ∈ convexHull ℝ {v | ∃ (c : Nat) (q : MeshCorner), l[c]? = some q ∧ q.x = v ∧ ∃ j, j < 3 ∧ q.seeds j = y}, ∀ k, k < 3 → p k = z k) ↔ (∀ u, u < n → excess pts i u z ≤ 0) ∧ excess pts i y z = 0 := by
  constructor
  · rintro ⟨p, hp, e⟩
    have hsub : {v | ∃ (c : Nat) (q : MeshCorner), l[c]? = some q ∧ q.x = v ∧ ∃ j, j < 3 ∧ q.seeds j = y} ⊆ {v | ∃ (c : Nat) (q : MeshCorner), l[c]? = some q ∧ q.x = v} := by
      rintro v ⟨c, q, h1, h2, -⟩
      exact ⟨c, q, h1, h2⟩
    refine ⟨fun u hu => by rw [← excess_congr e]; exact h.hull_le (convexHull_mono hsub hp) hu, ?_⟩
    have : convexHull ℝ {v | ∃ (c : Nat) (q : MeshCorner), l[c]? = some q ∧ q.x = v ∧ ∃ j, j < 3 ∧ q.seeds j = y} ⊆ {v | excess pts i y v = 0} := convexHull_min (by
      rintro v ⟨c, q, hq, rfl, j, hj, rfl⟩
      exact h.on c q j hq hj) (by
      intro u hu v hv s t hs ht hst
      rw [Set.mem_setOf_eq] at hu hv ⊢
      rw [excess_affine pts i y u v s t hst, hu, hv]
      ring)
    rw [← excess_congr e]
    exact this hp
  · rintro ⟨h1, h2⟩
    obtain ⟨p, hp, e⟩ := h.span z h1
    have := hull_zero (excess_affine pts i y) (by
      rintro v ⟨c, q, hq, rfl⟩
      exact h.near c q y hq hy) hp (by rw [excess_congr e]; exact h2)
    refine ⟨p, convexHull_mono ?_ this, e⟩
    rintro v ⟨⟨c, q, hq, rfl⟩, hv⟩
    exact ⟨c, q, hq, rfl, h.only c q y hq hy hyi hv⟩

/-- Two corners on the same three bisectors are one. -/
theorem ExactCell.same (h : ExactCell pts n i l) {c c' : Nat} {q q' : MeshCorner} (hq : l[c]? = some q) (hq' : l[c']? = some q') (he : ∀ j, j < 3 → excess pts i (q.seeds j) q'.x = 0) : c = c' :=
  h.inj c c' q q' hq hq' fun j hj => by
    obtain ⟨h1, h2⟩ := h.range c q j hq hj
    obtain ⟨j', h3, h4⟩ := h.only c' q' _ hq' h1 h2 (he j hj)
    exact ⟨j', h3, h4.symm⟩

/-- Corners at the same place are one. -/
theorem ExactCell.place (h : ExactCell pts n i l) {c c' : Nat} {q q' : MeshCorner} (hq : l[c]? = some q) (hq' : l[c']? = some q') (he : ∀ k, k < 3 → q.x k = q'.x k) : c = c' :=
  h.same hq hq' fun j hj => by rw [← excess_congr he]; exact h.on c q j hq hj

/-- Every point of the cell that is as far from three other seeds is a corner. -/
theorem ExactCell.corner (h : ExactCell pts n i l) {a b c : Nat} (hab : a ≠ b) (hac : a ≠ c) (hbc : b ≠ c) (ha : a < n ∧ a ≠ i) (hb : b < n ∧ b ≠ i) (hc : c < n ∧ c ≠ i) {z : Nat → ℝ} (hz : ∀ y, y < n → excess pts i y z ≤ 0)
    (za : excess pts i a z = 0) (zb : excess pts i b z = 0) (zc : excess pts i c z = 0) : ∃ (k : Nat) (q : MeshCorner), l[k]? = some q ∧ ∀ d, d < 3 → q.x d = z d := by
  obtain ⟨p, hp, e⟩ := h.span z hz
  have h1 := hull_zero (((excess_affine pts i a).add (excess_affine pts i b)).add (excess_affine pts i c)) (by
    rintro v ⟨k, q, hq, rfl⟩
    have := h.near k q a hq ha.1
    have := h.near k q b hq hb.1
    have := h.near k q c hq hc.1
    linarith) hp (by rw [excess_congr e, excess_congr e, excess_congr e]; linarith)
  obtain ⟨v, ⟨k, q, hq, rfl⟩, hv⟩ := convexHull_nonempty_iff.1 ⟨p, h1⟩
  have all : ∀ {k' : Nat} {q' : MeshCorner}, l[k']? = some q' → excess pts i a q'.x + excess pts i b q'.x + excess pts i c q'.x = 0 → ∀ y, (∃ j, j < 3 ∧ q'.seeds j = y) ↔ y = a ∨ y = b ∨ y = c := by
    intro k' q' hq' hv' y
    have l1 := h.near k' q' a hq' ha.1
    have l2 := h.near k' q' b hq' hb.1
    have l3 := h.near k' q' c hq' hc.1
    obtain ⟨j1, g1, e1⟩ := h.only k' q' a hq' ha.1 ha.2 (by linarith)
    obtain ⟨j2, g2, e2⟩ := h.only k' q' b hq' hb.1 hb.2 (by linarith)
    obtain ⟨j3, g3, e3⟩ := h.only k' q' c hq' hc.1 hc.2 (by linarith)
    have d12 : j1 ≠ j2 := fun q => hab (by rw [← e1, ← e2, q])
    have d13 : j1 ≠ j3 := fun q => hac (by rw [← e1, ← e3, q])
    have d23 : j2 ≠ j3 := fun q => hbc (by rw [← e2, ← e3, q])
    constructor
    · rintro ⟨j, hj, rfl⟩
      have : j = j1 ∨ j = j2 ∨ j = j3 := by omega
      rcases this with rfl | rfl | rfl
      · exact Or.inl e1
      · exact Or.inr (Or.inl e2)
      · exact Or.inr (Or.inr e3)
    · rintro (rfl | rfl | rfl)
      · exact ⟨j1, g1, e1⟩
      · exact ⟨j2, g2, e2⟩
      · exact ⟨j3, g3, e3⟩
  have hone : {v | (∃ (c : Nat) (q : MeshCorner), l[c]? = some q ∧ q.x = v) ∧ excess pts i a v + excess pts i b v + excess pts i c v = 0} ⊆ {q.x} := by
    rintro v ⟨⟨k', q', hq', rfl⟩, hv'⟩
    obtain rfl : k' = k := h.inj k' k q' q hq' hq fun j hj => by
      obtain ⟨j', h3, h4⟩ := (all hq hv _).2 ((all hq' hv' (q'.seeds j)).1 ⟨j, hj, rfl⟩)
      exact ⟨j', h3, h4.symm⟩
    rw [hq] at hq'
    rw [Option.some.inj hq']
    rfl
  have hpq := convexHull_mono hone h1
  rw [convexHull_singleton] at hpq
  exact ⟨k, q, hq, fun d hd => by rw [← e d hd, Set.mem_singleton_iff.1 hpq]⟩

/-! ## The walk around a face -/

/-- The walk around a face comes back after all corners of the face. -/
theorem ExactCell.cycle (h : ExactCell pts n i l) {C : Cells} (hC : C i = some l) {nb : Nat} (hex : ∃ (c : Nat) (q : MeshCorner) (j : Nat), l[c]? = some q ∧ j < 3 ∧ q.seeds j = nb) :
    ∃ m cyc, 3 ≤ m ∧ m ≤ l.length ∧ FaceCycle C i nb m cyc ∧ (∀ t t', t < m → t' < m → cyc t = cyc t' → t = t') ∧
      (∀ (c : Nat) (q : MeshCorner) (j : Nat), l[c]? = some q → j < 3 → q.seeds j = nb → ∃ t, t < m ∧ cyc t = c) ∧
      ∀ t, t < m → ∃ (q q' : MeshCorner) (e : Nat), l[cyc t]? = some q ∧ l[cyc (t + 1)]? = some q' ∧ e < n ∧ e ≠ i ∧ e ≠ nb ∧ (∃ j, j < 3 ∧ q.seeds j = e) ∧ ∃ j, j < 3 ∧ q'.seeds j = e := by
  let On : Nat → Prop := fun c => ∃ (q : MeshCorner) (j : Nat), l[c]? = some q ∧ j < 3 ∧ q.seeds j = nb
  have H : ∀ c, ∃ de : Nat × Nat, On c → ∃ (q : MeshCorner) (j : Nat), l[c]? = some q ∧ j < 3 ∧ q.seeds j = nb ∧ q.nbr j = de.1 ∧ q.nbr ((j + 1) % 3) = de.2 := fun c => by
    by_cases hc : On c
    · obtain ⟨q, j, h1, h2, h3⟩ := hc
      exact ⟨(_, _), fun _ => ⟨q, j, h1, h2, h3, rfl, rfl⟩⟩
    · exact ⟨(0, 0), fun g => absurd g hc⟩
  choose f hf using H
  -- the step and its inverse
  have st : ∀ c, On c → On (f c).1 ∧ (f (f c).1).2 = c ∧ (f c).1 ≠ c ∧ (f c).1 ≠ (f c).2 := by
    intro c hc
    obtain ⟨q, j, h1, h2, h3, h4, h5⟩ := hf c hc
    obtain ⟨g0, q', j', g1, g2, g3, g4, g5⟩ := h.link c q j h1 h2
    rw [h4] at g0 g1
    have hon : On (f c).1 := ⟨q', (j' + 2) % 3, g1, by omega, g5.trans h3⟩
    refine ⟨hon, ?_, g0, fun g => ?_⟩
    · obtain ⟨q2, j2, k1, k2, k3, -, k5⟩ := hf _ hon
      rw [g1] at k1
      obtain rfl := Option.some.inj k1
      have := h.diff _ q' j2 ((j' + 2) % 3) g1 k2 (by omega) (by rw [k3, g5, h3])
      rw [← k5, this, show ((j' + 2) % 3 + 1) % 3 = j' by omega]
      exact g3
    · rw [← h4, ← h5] at g
      have := h.simple c q j ((j + 1) % 3) h1 h2 (by omega) g
      omega
  have hex' : ∃ c, On c := by
    obtain ⟨c, q, j, h1, h2, h3⟩ := hex
    exact ⟨c, q, j, h1, h2, h3⟩
  obtain ⟨c0, hc0, hmin⟩ : ∃ c0, On c0 ∧ ∀ c, c < c0 → ¬ On c := ⟨Nat.find hex', Nat.find_spec hex', fun c hc => Nat.find_min hex' hc⟩
  let cyc : Nat → Nat := fun t => (fun c => (f c).1)^[t] c0
  have cyc0 : cyc 0 = c0 := rfl
  have cycs : ∀ t, cyc (t + 1) = (f (cyc t)).1 := fun t => by
    show (fun c => (f c).1)^[t + 1] c0 = _
    rw [Function.iterate_succ', Function.comp_apply]
  have con : ∀ t, On (cyc t) := fun t => by
    induction t with
    | zero => exact hc0
    | succ t ih => rw [cycs]; exact (st _ ih).1
  have back : ∀ t, (f (cyc (t + 1))).2 = cyc t := fun t => by rw [cycs]; exact (st _ (con t)).2.1
  have pull : ∀ a k, cyc (a + k) = cyc a → cyc k = c0 := by
    intro a
    induction a with
    | zero => intro k e; rw [Nat.zero_add] at e; exact e
    | succ a ih =>
      intro k e
      refine ih k ?_
      rw [← back (a + k), ← back a, show a + k + 1 = a + 1 + k by omega, e]
  have clt : ∀ t, cyc t < l.length := fun t => by
    obtain ⟨q, j, h1, -⟩ := con t
    exact (List.getElem?_eq_some_iff.1 h1).1
  have hper : ∃ k, 0 < k ∧ cyc k = c0 := by
    obtain ⟨a, b, hab, e⟩ := Finite.exists_ne_map_eq_of_infinite fun t : Nat => (⟨cyc t, clt t⟩ : Fin l.length)
    have e' : cyc a = cyc b := congrArg Fin.val e
    rcases Nat.lt_or_gt_of_ne hab with g | g
    · exact ⟨b - a, by omega, pull a (b - a) (by rw [show a + (b - a) = b by omega]; exact e'.symm)⟩
    · exact ⟨a - b, by omega, pull b (a - b) (by rw [show b + (a - b) = a by omega]; exact e')⟩
  obtain ⟨m, ⟨hm0, hm⟩, hmm⟩ : ∃ m, (0 < m ∧ cyc m = c0) ∧ ∀ k, k < m → ¬ (0 < k ∧ cyc k = c0) := ⟨Nat.find hper, Nat.find_spec hper, fun k hk => Nat.find_min hper hk⟩
  have cinj : ∀ t t', t < m → t' < m → cyc t = cyc t' → t = t' := by
    have key : ∀ t t', t < t' → t' < m → cyc t ≠ cyc t' := fun t t' h1 h2 e => hmm (t' - t) (by omega) ⟨by omega, pull t (t' - t) (by rw [show t + (t' - t) = t' by omega]; exact e.symm)⟩
    intro t t' h1 h2 e
    rcases Nat.lt_trichotomy t t' with g | g | g
    · exact absurd e (key t t' g h2)
    · exact g
    · exact absurd e.symm (key t' t g h1)
  have hm3 : 3 ≤ m := by
    by_contra hlt
    have : m = 1 ∨ m = 2 := by omega
    rcases this with rfl | rfl
    · rw [cycs 0, cyc0] at hm
      exact (st c0 hc0).2.2.1 hm
    · have h1 := back 1
      rw [hm] at h1
      have h2 := cycs 0
      rw [cyc0] at h2
      exact (st c0 hc0).2.2.2 (by rw [h1, ← h2])
  have hml : m ≤ l.length := by
    have := Finset.card_le_card_of_injOn (s := Finset.range m) (t := Finset.range l.length) cyc (fun t _ => Finset.mem_coe.2 (Finset.mem_range.2 (clt t))) (fun t ht t' ht' e => cinj t t' (Finset.mem_range.1 ht) (Finset.mem_range.1 ht') e)
    simpa using this
  refine ⟨m, cyc, hm3, hml, ⟨fun c q j hc hq hj e => ?_, fun t ht => ?_, fun t h1 h2 e => ?_, hm⟩, cinj, fun c q j hq hj hs => ?_, fun t ht => ?_⟩
  · obtain ⟨l', e1, e2⟩ := cornerAt_eq.1 hq
    rw [hC] at e1
    obtain rfl := Option.some.inj e1
    exact hmin c hc ⟨q, j, e2, hj, e⟩
  · obtain ⟨q, j, h1, h2, h3, h4, -⟩ := hf _ (con t)
    refine ⟨q, j, cornerAt_eq.2 ⟨l, hC, h1⟩, h2, h3, fun j' hj' e => ?_, by rw [h4, cycs]⟩
    have := h.diff _ q j' j h1 (by omega) h2 (e.trans h3.symm)
    omega
  · exact hmm t h2 ⟨h1, e⟩
  · -- the corner is on the cycle
    let g : (Nat → ℝ) → ℝ := fun v => excess pts i (q.seeds ((j + 1) % 3)) v + excess pts i (q.seeds ((j + 2) % 3)) v
    let val : Nat → ℝ := fun t => match l[cyc t]? with
      | some q' => g q'.x
      | none => 0
    have hval : ∀ {t : Nat} {q' : MeshCorner}, l[cyc t]? = some q' → val t = g q'.x := fun {t q'} e => by
      show (match l[cyc t]? with
        | some q' => g q'.x
        | none => 0) = _
      rw [e]
    obtain ⟨t, ht, hbest⟩ := (Finset.range m).exists_max_image val ⟨0, Finset.mem_range.2 hm0⟩
    rw [Finset.mem_range] at ht
    obtain ⟨q', j', h1, h2, h3, h4, h5⟩ := hf _ (con t)
    obtain ⟨k, x, hk, hcomb⟩ := h.cone _ q' q.x h1 fun j'' hj'' => h.near c q _ hq (h.range _ q' j'' h1 hj'').1
    have gle : g q'.x ≤ 0 := by
      have r1 := h.near _ q' _ h1 (h.range c q ((j + 1) % 3) hq (by omega)).1
      have r2 := h.near _ q' _ h1 (h.range c q ((j + 2) % 3) hq (by omega)).1
      show _ + _ ≤ (0 : ℝ)
      linarith
    have g0 : g q.x = 0 := by
      show _ + _ = (0 : ℝ)
      rw [h.on c q _ hq (by omega), h.on c q _ hq (by omega)]
      ring
    -- both neighbours on the face are on the cycle
    have n1 : ∃ q2, l[q'.nbr j']? = some q2 ∧ q2.x = x j' ∧ g q2.x ≤ g q'.x := by
      obtain ⟨-, ⟨q2, e1, e2⟩, -⟩ := hk j' h2
      refine ⟨q2, e1, e2, ?_⟩
      rw [h4, ← cycs] at e1
      by_cases hlast : t + 1 = m
      · rw [hlast, hm, ← cyc0] at e1
        rw [← hval e1, ← hval h1]
        exact hbest 0 (Finset.mem_range.2 hm0)
      · rw [← hval e1, ← hval h1]
        exact hbest (t + 1) (Finset.mem_range.2 (by omega))
    have n2 : ∃ q2, l[q'.nbr ((j' + 1) % 3)]? = some q2 ∧ q2.x = x ((j' + 1) % 3) ∧ g q2.x ≤ g q'.x := by
      obtain ⟨-, ⟨q2, e1, e2⟩, -⟩ := hk ((j' + 1) % 3) (by omega)
      refine ⟨q2, e1, e2, ?_⟩
      rw [h5] at e1
      by_cases ht0 : t = 0
      · have := back (m - 1)
        rw [show m - 1 + 1 = m by omega, hm, ← cyc0, ← ht0] at this
        rw [this] at e1
        rw [← hval e1, ← hval h1]
        exact hbest (m - 1) (Finset.mem_range.2 (by omega))
      · have := back (t - 1)
        rw [show t - 1 + 1 = t by omega] at this
        rw [this] at e1
        rw [← hval e1, ← hval h1]
        exact hbest (t - 1) (Finset.mem_range.2 (by omega))
    have n3 : k ((j' + 2) % 3) = 0 := by
      refine (hk ((j' + 2) % 3) (by omega)).2.2 ?_
      rw [show ((j' + 2) % 3 + 1) % 3 = j' by omega, h3, ← hs]
      exact h.on c q j hq hj
    have hg : g q.x - g q'.x = k 0 * (g (x 0) - g q'.x) + k 1 * (g (x 1) - g q'.x) + k 2 * (g (x 2) - g q'.x) := by
      have c1 := excess_comb (pts := pts) (i := i) (y := q.seeds ((j + 1) % 3)) hcomb
      have c2 := excess_comb (pts := pts) (i := i) (y := q.seeds ((j + 2) % 3)) hcomb
      show (_ + _) - (_ + _) = _ * ((_ + _) - (_ + _)) + _ * ((_ + _) - (_ + _)) + _ * ((_ + _) - (_ + _))
      linarith
    have hsum : k 0 * (g (x 0) - g q'.x) + k 1 * (g (x 1) - g q'.x) + k 2 * (g (x 2) - g q'.x) ≤ 0 := by
      obtain ⟨q1, -, e1, l1⟩ := n1
      obtain ⟨q2, -, e2, l2⟩ := n2
      rw [e1] at l1
      rw [e2] at l2
      have p1 := mul_nonneg (hk j' h2).1 (sub_nonneg.2 l1)
      have p2 := mul_nonneg (hk ((j' + 1) % 3) (by omega)).1 (sub_nonneg.2 l2)
      interval_cases j' <;> norm_num at n3 p1 p2 ⊢ <;> rw [n3] <;> linarith
    have hz : g q'.x = 0 := by linarith
    have e1 : excess pts i (q.seeds ((j + 1) % 3)) q'.x = 0 ∧ excess pts i (q.seeds ((j + 2) % 3)) q'.x = 0 := by
      have r1 := h.near _ q' _ h1 (h.range c q ((j + 1) % 3) hq (by omega)).1
      have r2 := h.near _ q' _ h1 (h.range c q ((j + 2) % 3) hq (by omega)).1
      have : excess pts i (q.seeds ((j + 1) % 3)) q'.x + excess pts i (q.seeds ((j + 2) % 3)) q'.x = 0 := hz
      constructor <;> linarith
    refine ⟨t, ht, (h.same hq h1 fun j'' hj'' => ?_).symm⟩
    have : j'' = j ∨ j'' = (j + 1) % 3 ∨ j'' = (j + 2) % 3 := by omega
    rcases this with rfl | rfl | rfl
    · rw [hs, ← h3]; exact h.on _ q' j' h1 h2
    · exact e1.1
    · exact e1.2
  · obtain ⟨q, j, h1, h2, h3, h4, -⟩ := hf _ (con t)
    obtain ⟨-, q', j', g1, g2, g3, g4, g5⟩ := h.link _ q j h1 h2
    rw [h4, ← cycs] at g1
    obtain ⟨r1, r2⟩ := h.range _ q ((j + 2) % 3) h1 (by omega)
    refine ⟨q, q', q.seeds ((j + 2) % 3), h1, g1, r1, r2, fun e => ?_, ⟨_, by omega, rfl⟩, ⟨j', g2, g4⟩⟩
    have := h.diff _ q ((j + 2) % 3) j h1 (by omega) h2 (e.trans h3.symm)
    omega

end VoroCrust
