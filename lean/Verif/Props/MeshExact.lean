import Verif.Props.MeshCell

/-!
# The cells of the mesh are exact

For seeds in general position every cell that `generate_3d_voronoi_mesh` collects is the Voronoi cell, with its graph of corners.
-/

namespace VoroCrust

open Classical

/-- The place of a seed. -/
def seedPos (xs : List SeedRec) (o : Nat) : Nat → ℝ :=
  match xs[o]? with
  | some s => s.x
  | none => fun _ => 0

theorem seedPos_eq {xs : List SeedRec} {o : Nat} {s : SeedRec} (h : xs[o]? = some s) : seedPos xs o = s.x := by unfold seedPos; rw [h]

theorem oldAt_pos {T : MTree} {xs : List SeedRec} (h : T.Holds xs) {a o : Nat} (ha : a < xs.length) (e : oldAt T a = some o) : T.P.pts a = seedPos xs o ∧ o < xs.length := by
  obtain ⟨o', s, h1, h2, h3⟩ := oldAt_spec h ha
  rw [e] at h1
  obtain rfl := Option.some.inj h1
  exact ⟨by rw [h3, seedPos_eq h2], (List.getElem?_eq_some_iff.1 h2).1⟩

theorem oldAt_onto {T : MTree} {xs : List SeedRec} (h : T.Holds xs) {o : Nat} (ho : o < xs.length) : ∃ a, a < xs.length ∧ oldAt T a = some o := by
  obtain ⟨a, h1, h2⟩ := h.onto o ho
  exact ⟨a, h1, by unfold oldAt; rw [if_pos (by rw [h.num]; exact h1)]; exact h2⟩

theorem oldAt_inj {T : MTree} {xs : List SeedRec} (h : T.Holds xs) {a b o : Nat} (ha : a < xs.length) (hb : b < xs.length) (e : oldAt T a = some o) (e' : oldAt T b = some o) : a = b := by
  rw [← newRank_eq h ha e, ← newRank_eq h hb e']

/-- The bisector plane and the squared distances. -/
theorem bisector_val {x y : Nat → ℝ} (hy : euclid 3 y x ≠ 0) (v : Nat → ℝ) : side (midPoint x y) (bisectorNormal x y) v = (distSq3 v x - distSq3 v y) / (2 * euclid 3 y x) := by
  rw [side_bisector, dotDiff_self, sqrt_distSq3]
  have hid : distSq3 v y = distSq3 v x - 2 * dotDiff x y v + distSq3 y x := by unfold distSq3 dotDiff; ring
  rw [hid]
  field_simp
  ring

theorem bisector_sign {x y : Nat → ℝ} (hy : euclid 3 y x ≠ 0) (v : Nat → ℝ) :
    (side (midPoint x y) (bisectorNormal x y) v = 0 ↔ distSq3 v x - distSq3 v y = 0) ∧ (side (midPoint x y) (bisectorNormal x y) v ≤ 0 ↔ distSq3 v x - distSq3 v y ≤ 0) ∧
      (side (midPoint x y) (bisectorNormal x y) v < 0 ↔ distSq3 v x - distSq3 v y < 0) := by
  have hpos : 0 < 2 * euclid 3 y x := by have := lt_of_le_of_ne (euclid_nonneg 3 y x) (Ne.symm hy); linarith
  rw [bisector_val hy]
  refine ⟨?_, ?_, ?_⟩
  · rw [div_eq_zero_iff, or_iff_left hpos.ne']
  · rw [← not_lt, ← not_lt, div_pos_iff_of_pos_right hpos]
  · constructor
    · intro h
      by_contra hh
      exact absurd h (not_lt.2 (div_nonneg (not_lt.1 hh) hpos.le))
    · intro h
      exact div_neg_of_neg_of_pos h hpos

/-- **The vertices are simple**: where four seeds are nearest to a point, every other seed is at least `1e-10` farther. -/
def VertexClear (pts : Nat → Nat → ℝ) (n : Nat) : Prop :=
  ∀ a b c d y z, a < n → b < n → c < n → d < n → y < n → a ≠ b → a ≠ c → a ≠ d → b ≠ c → b ≠ d → c ≠ d → y ≠ a → y ≠ b → y ≠ c → y ≠ d →
    euclid 3 z (pts a) = euclid 3 z (pts b) → euclid 3 z (pts a) = euclid 3 z (pts c) → euclid 3 z (pts a) = euclid 3 z (pts d) → (∀ u, u < n → euclid 3 z (pts a) ≤ euclid 3 z (pts u)) → euclid 3 z (pts a) + 1e-10 ≤ euclid 3 z (pts y)

theorem excess_le {pts : Nat → Nat → ℝ} {i y : Nat} {z : Nat → ℝ} : excess pts i y z ≤ 0 ↔ euclid 3 z (pts i) ≤ euclid 3 z (pts y) := by
  rw [dist_mono]; unfold excess; exact sub_nonpos

theorem excess_zero {pts : Nat → Nat → ℝ} {i y : Nat} {z : Nat → ℝ} : excess pts i y z = 0 ↔ euclid 3 z (pts i) = euclid 3 z (pts y) := by
  unfold excess
  rw [sub_eq_zero, le_antisymm_iff, le_antisymm_iff, dist_mono, dist_mono]

/-- Of the owner of a corner: a seed with a cell, as near as the seed of the cell, and the first such seed in the order of the new indices. -/
def ExactOwner (xs : List SeedRec) (rank : Nat → Nat) (i : Nat) (l : List MeshCorner) : Prop :=
  ∀ (c : Nat) (q : MeshCorner), l[c]? = some q → (∃ s, xs[q.owner]? = some s ∧ s.region ≠ 0) ∧ excess (seedPos xs) i q.owner q.x = 0 ∧
    ∀ y s, xs[y]? = some s → s.region ≠ 0 → excess (seedPos xs) i y q.x = 0 → rank q.owner ≤ rank y

theorem exact_cell {T : MTree} {xs : List SeedRec} (h : T.Holds xs) {a o : Nat} {s : SeedRec} (ha : a < xs.length) (hms : meshSeed T xs a = some (o, s)) (hreg : s.region ≠ 0) (hsz : 0 < 2 * s.size)
    {fuel' fuel : Nat} {lc : List CellCorner} {l : List MeshCorner} (hget : getCell T (ghostSeed T xs) a fuel' fuel (2 * s.size) = some (some lc)) (hold : oldCorners T lc = some l)
    (hgp : ∀ m, m < fuel → GeneralPos T.P.pts T.P.num (T.P.pts a) (10 * (2 * s.size * 2 ^ (m + 1))))
    (hsep : ∀ z, z < T.P.num → z ≠ a → 2e-5 ≤ euclid 3 (T.P.pts z) (T.P.pts a)) (hvc : VertexClear (seedPos xs) xs.length) :
    ExactCell (seedPos xs) xs.length o l ∧ ExactOwner xs (newRank T xs) o l := by
  have hT : CellTree T := ⟨h.tree, h.dim⟩
  have hvor := C51_generic_partial T hT _ a fuel' fuel (2 * s.size) hsz lc hget hgp (fun z hz => by
    by_cases e : z = a
    · left; rw [e]; exact euclid_self 3 _
    · exact Or.inr (hsep z hz e))
  obtain ⟨m, q0, qs, P, hm, hq, hc, hrv, hl⟩ := getCell_round fuel hget
  have hg := hgp m hm
  generalize hρ : 2 * s.size * 2 ^ (m + 1) = ρ at *
  have hρ0 : 0 < ρ := by rw [← hρ]; positivity
  obtain ⟨loc, e, hnd, h2, h3⟩ := C08_in_sphere_sound_complete T.P T.ln hT.tree (fun _ => true) (T.P.pts a) ρ hρ0.le
  obtain rfl := Option.some.inj (e.symm.trans hq)
  rw [hT.dim] at h3
  have hloc : ∀ b ∈ q0 :: qs, b < xs.length := fun b hb => by rw [← h.num]; exact (h2 b hb).1
  generalize q0 :: qs = loc at *
  have hgl := hg.toLoc hnd (fun b hb => (h2 b hb).1)
  have hB : 0 < 10 * ρ := by linarith
  have hst := cellLoop_state hB hgl fuel' (CellState.start hB) hc
  have hsh := hst.shape
  have hself : a ∈ loc := h3 a (by rw [h.num]; exact ha) rfl (by rw [euclid_self]; exact hρ0)
  -- the seed of the cell
  obtain ⟨o', s', m1, m2, m3, m4⟩ := meshSeed_spec h ha
  rw [hms, Option.some.injEq, Prod.mk.injEq] at m2
  obtain ⟨rfl, rfl⟩ := m2
  have hxo : T.P.pts a = seedPos xs o := (oldAt_pos h ha m1).1
  have hne : ∀ {b : Nat}, b < xs.length → b ≠ a → euclid 3 (T.P.pts b) (T.P.pts a) ≠ 0 := fun {b} hb hba => by
    have := hsep b (by rw [h.num]; exact hb) hba
    intro h0
    rw [h0] at this
    norm_num at this
  -- the planes
  have sgn : ∀ {b ob : Nat} (v : Nat → ℝ), b < xs.length → b ≠ a → oldAt T b = some ob →
      (side (midPoint (T.P.pts a) (T.P.pts b)) (bisectorNormal (T.P.pts a) (T.P.pts b)) v = 0 ↔ excess (seedPos xs) o ob v = 0) ∧
      (side (midPoint (T.P.pts a) (T.P.pts b)) (bisectorNormal (T.P.pts a) (T.P.pts b)) v ≤ 0 ↔ excess (seedPos xs) o ob v ≤ 0) ∧
      (side (midPoint (T.P.pts a) (T.P.pts b)) (bisectorNormal (T.P.pts a) (T.P.pts b)) v < 0 ↔ excess (seedPos xs) o ob v < 0) := by
    intro b ob v hb hba eb
    have := bisector_sign (hne hb hba) v
    unfold excess
    rw [← hxo, ← (oldAt_pos h hb eb).1]
    exact this
  -- the corners
  obtain ⟨k1, k2⟩ := resultCorners_get _ hl
  have hr0 : P.rank 0 = 0 := rfl
  rw [hr0, Nat.zero_add, Nat.zero_add] at k2
  simp only [hr0, Nat.zero_add] at k1
  obtain ⟨l1, l2⟩ := oldCorners_get lc hold
  have cd : ∀ {c : Nat} {q : MeshCorner}, l[c]? = some q → ∃ b v, P.pos b = some v ∧ P.rank b = c ∧ q.x = v ∧
      (∀ j, j < 3 → ∃ jj y, P.wall b j = some (Wall.pt jj) ∧ loc[jj]? = some y ∧ oldAt T y = some (q.seeds j) ∧ y < xs.length ∧ y ≠ a) ∧
      (∀ j, j < 3 → ∃ d, P.nbr b j = some d ∧ P.Live d ∧ d ≠ b ∧ q.nbr j = P.rank d) ∧
      ∃ ow, cornerOwner (ghostSeed T xs) T.P.pts v (Real.sqrt (distSq3 v (T.P.pts a))) loc none = some ow ∧ oldAt T ow = some q.owner := by
    intro c q hcq
    obtain ⟨qc, e1, e2⟩ := l2 c q hcq
    obtain ⟨f1, f2, f3, ow, f4, f5⟩ := oldCorner_eq e2
    obtain ⟨b, v, -, hv, hrb, hres⟩ := k1 c qc e1
    obtain ⟨x1, x2, x3, x4⟩ := resultCorner_x hres
    have hlb := live_of_pos hv
    refine ⟨b, v, hv, hrb, by rw [f1, x1], fun j hj => ?_, fun j hj => ?_, ow, by rw [← x2]; exact f4, f5⟩
    · have := triple?_eq x3 j hj
      obtain ⟨w, hw, hlw⟩ := hst.wall_loc hlb hj
      rw [hw] at this
      rcases hlw with ⟨k, -, rfl⟩ | ⟨jj, y, rfl, e3, e4⟩
      · simp [wallSeed] at this
      · have hy : loc[jj]? = some (qc.seeds j) := this
        rw [List.getElem?_map, hy] at e3
        obtain rfl := Option.some.inj e3
        have hlt := hloc _ (List.mem_of_getElem? hy)
        exact ⟨jj, qc.seeds j, hw, hy, f3 j hj, hlt, fun g => e4 (by rw [g]; exact euclid_self 3 _)⟩
    · obtain ⟨d, d1, d2, d3, d4⟩ := WF.newIndex hsh.wf hj hlb
      have := triple?_eq x4 j hj
      simp only [d4, Option.some.injEq] at this
      exact ⟨d, d1, d2, d3, by rw [f2]; exact this.symm⟩
  have inv : ∀ {b : Nat}, P.Live b → ∃ q, l[P.rank b]? = some q := fun {b} hb => by
    have : P.rank b < l.length := by rw [l1, ← k2]; exact rank_lt P (hsh.wf.fin b hb) hb
    exact ⟨_, List.getElem?_eq_getElem this⟩
  -- equal walls and equal seeds
  have weq : ∀ {b b' j j' : Nat} {q q' : MeshCorner}, l[P.rank b]? = some q → l[P.rank b']? = some q' → P.Live b → P.Live b' → j < 3 → j' < 3 → (q.seeds j = q'.seeds j' ↔ P.wall b j = P.wall b' j') := by
    intro b b' j j' q q' hq hq' hb hb' hj hj'
    obtain ⟨b1, v, p1, p2, -, p3, -⟩ := cd hq
    obtain ⟨b2, v', r1, r2, -, r3, -⟩ := cd hq'
    obtain rfl := rank_inj P (live_of_pos p1) hb p2
    obtain rfl := rank_inj P (live_of_pos r1) hb' r2
    obtain ⟨jj, y, w1, w2, w3, w4, -⟩ := p3 j hj
    obtain ⟨jj', y', w1', w2', w3', w4', -⟩ := r3 j' hj'
    rw [w1, w1']
    constructor
    · intro e
      rw [e] at w3
      have := oldAt_inj h w4 w4' w3 w3'
      rw [this] at w2
      obtain ⟨g1, g2⟩ := List.getElem?_eq_some_iff.1 w2
      obtain ⟨g3, g4⟩ := List.getElem?_eq_some_iff.1 w2'
      have : jj = jj' := (List.Nodup.getElem_inj_iff hnd).1 (g2.trans g4.symm)
      rw [this]
    · intro e
      obtain rfl : jj = jj' := by simpa using e
      rw [w2] at w2'
      obtain rfl := Option.some.inj w2'
      rw [w3] at w3'
      exact Option.some.inj w3'
  have hhgt : ∀ {b j jj y : Nat} (v : Nat → ℝ), P.wall b j = some (Wall.pt jj) → loc[jj]? = some y → hgt (cellPl (T.P.pts a) (10 * ρ) (loc.map T.P.pts)) (P.wall b j) v = side (midPoint (T.P.pts a) (T.P.pts y)) (bisectorNormal (T.P.pts a) (T.P.pts y)) v := by
    intro b j jj y v hw hy
    rw [hw]
    unfold hgt
    rw [cellPl_pt (show (loc.map T.P.pts)[jj]? = some (T.P.pts y) by rw [List.getElem?_map, hy]; rfl)]
  have onx : ∀ (c : Nat) (q : MeshCorner) (j : Nat), l[c]? = some q → j < 3 → excess (seedPos xs) o (q.seeds j) q.x = 0 := by
    intro c q j hcq hj
    obtain ⟨b, v, hv, -, rfl, hw, -⟩ := cd hcq
    obtain ⟨jj, y, w1, w2, w3, w4, w5⟩ := hw j hj
    have := hsh.on b q.x j hj hv
    rw [hhgt q.x w1 w2] at this
    exact (sgn q.x w4 w5 w3).1.1 this
  have hset : ∀ v, (∃ q ∈ lc, q.x = v) ↔ ∃ (c : Nat) (q : MeshCorner), l[c]? = some q ∧ q.x = v := by
    intro v
    constructor
    · rintro ⟨q, hq, rfl⟩
      obtain ⟨c, hc⟩ := List.mem_iff_getElem?.1 hq
      have hlt : c < l.length := by rw [l1]; exact (List.getElem?_eq_some_iff.1 hc).1
      obtain ⟨qc, e1, e2⟩ := l2 c _ (List.getElem?_eq_getElem hlt)
      rw [hc] at e1
      obtain rfl := Option.some.inj e1
      exact ⟨c, _, List.getElem?_eq_getElem hlt, (oldCorner_eq e2).1⟩
    · rintro ⟨c, q, hq, rfl⟩
      obtain ⟨qc, e1, e2⟩ := l2 c q hq
      exact ⟨qc, List.mem_of_getElem? e1, (oldCorner_eq e2).1.symm⟩
  have hS : {v | ∃ q ∈ lc, q.x = v} = {v | ∃ (c : Nat) (q : MeshCorner), l[c]? = some q ∧ q.x = v} := Set.ext hset
  have vor : ∀ z, (∃ p ∈ convexHull ℝ {v | ∃ (c : Nat) (q : MeshCorner), l[c]? = some q ∧ q.x = v}, ∀ k, k < 3 → p k = z k) ↔ ∀ y, y < xs.length → excess (seedPos xs) o y z ≤ 0 := by
    intro z
    rw [← hS, hvor z]
    constructor
    · intro hz y hy
      obtain ⟨b, hb, eb⟩ := oldAt_onto h hy
      rw [excess_le, ← hxo, ← (oldAt_pos h hb eb).1]
      exact hz b (by rw [h.num]; exact hb)
    · intro hz b hb
      rw [h.num] at hb
      obtain ⟨ob, sb, eb, -⟩ := oldAt_spec h hb
      obtain ⟨e1, e2⟩ := oldAt_pos h hb eb
      rw [hxo, e1, ← excess_le]
      exact hz ob e2
  have near : ∀ (c : Nat) (q : MeshCorner) (y : Nat), l[c]? = some q → y < xs.length → excess (seedPos xs) o y q.x ≤ 0 := fun c q y hq hy =>
    (vor q.x).1 ⟨q.x, subset_convexHull ℝ _ ⟨c, q, hq, rfl⟩, fun _ _ => rfl⟩ y hy
  have range : ∀ (c : Nat) (q : MeshCorner) (j : Nat), l[c]? = some q → j < 3 → q.seeds j < xs.length ∧ q.seeds j ≠ o := by
    intro c q j hq hj
    obtain ⟨b, v, -, -, -, hw, -⟩ := cd hq
    obtain ⟨jj, y, w1, w2, w3, w4, w5⟩ := hw j hj
    exact ⟨(oldAt_pos h w4 w3).2, fun e => w5 (oldAt_inj h w4 ha (e ▸ w3) m1)⟩
  have diff : ∀ (c : Nat) (q : MeshCorner) (j j' : Nat), l[c]? = some q → j < 3 → j' < 3 → q.seeds j = q.seeds j' → j = j' := by
    intro c q j j' hq hj hj' e
    obtain ⟨b, v, hv, rfl, -⟩ := cd hq
    exact hsh.diff b j j' (live_of_pos hv) hj hj' ((weq hq hq (live_of_pos hv) (live_of_pos hv) hj hj').1 e)
  have only : ∀ (c : Nat) (q : MeshCorner) (y : Nat), l[c]? = some q → y < xs.length → y ≠ o → excess (seedPos xs) o y q.x = 0 → ∃ j, j < 3 ∧ q.seeds j = y := by
    intro c q y hq hy hyo h0
    by_contra hno
    push Not at hno
    obtain ⟨z, hz, ez⟩ := oldAt_onto h hy
    have hza : z ≠ a := fun e => hyo (by rw [e, m1] at ez; exact (Option.some.inj ez).symm)
    obtain ⟨b, v, hv, -, rfl, hw, -⟩ := cd hq
    have hwall : ∀ j, j < 3 → ∃ u, SeedWall T.P.pts T.P.num (T.P.pts a) (Wall.pt u) ∧ oldAt T u = some (q.seeds j) ∧ u < xs.length ∧ Wall.pt z ≠ Wall.pt u ∧
        side (midPoint (T.P.pts a) (T.P.pts u)) (bisectorNormal (T.P.pts a) (T.P.pts u)) q.x = 0 := fun j hj => by
      obtain ⟨jj, u, w1, w2, w3, w4, w5⟩ := hw j hj
      refine ⟨u, Or.inr ⟨u, rfl, by rw [h.num]; exact w4, hne w4 w5⟩, w3, w4, fun e => ?_, (sgn q.x w4 w5 w3).1.2 (onx c q j hq hj)⟩
      obtain rfl : z = u := by simpa using e
      rw [ez] at w3
      exact hno j hj (Option.some.inj w3).symm
    obtain ⟨u0, a0, b0, c0, d0, e0⟩ := hwall 0 (by omega)
    obtain ⟨u1, a1, b1, c1, d1, e1⟩ := hwall 1 (by omega)
    obtain ⟨u2, a2, b2, c2, d2, e2⟩ := hwall 2 (by omega)
    have nq : ∀ {u u' j j'}, oldAt T u = some (q.seeds j) → oldAt T u' = some (q.seeds j') → j < 3 → j' < 3 → j ≠ j' → Wall.pt u ≠ Wall.pt u' := fun {u u' j j'} e e' hj hj' hjj g => by
      obtain rfl : u = u' := by simpa using g
      rw [e] at e'
      exact hjj (diff c q j j' hq hj hj' (Option.some.inj e'))
    have := hg _ _ _ z q.x a0 a1 a2 (nq b0 b1 (by omega) (by omega) (by omega)) (nq b0 b2 (by omega) (by omega) (by omega)) (nq b1 b2 (by omega) (by omega) (by omega)) (by rw [h.num]; exact hz) (hne hz hza) d0 d1 d2 e0 e1 e2
    have h0' := (sgn q.x hz hza ez).1.2 h0
    rw [h0'] at this
    norm_num at this
  refine ⟨⟨range, diff, near, onx, only, ?_, fun z hz => (vor z).2 hz, ?_, ?_, ?_⟩, ?_⟩
  · intro c c' q q' hq hq' hall
    obtain ⟨b, v, hv, rfl, -⟩ := cd hq
    obtain ⟨b', v', hv', rfl, -⟩ := cd hq'
    rw [hsh.inj b b' (live_of_pos hv) (live_of_pos hv') fun j hj => ?_]
    obtain ⟨j', g1, g2⟩ := hall j hj
    exact ⟨j', g1, (weq hq hq' (live_of_pos hv) (live_of_pos hv') hj g1).1 g2⟩
  · intro c q j hq hj
    obtain ⟨b, v, hv, rfl, -, -, hn, -⟩ := cd hq
    have hlb := live_of_pos hv
    obtain ⟨d, d1, d2, d3, d4⟩ := hn j hj
    rw [d4]
    obtain ⟨q', hq'⟩ := inv d2
    obtain ⟨j', g1, g2, g3, g4⟩ := hsh.coh b j d hj hlb d1
    refine ⟨fun e => d3 (rank_inj P d2 hlb e), q', j', hq', g1, ?_, (weq hq' hq d2 hlb g1 (by omega)).2 g3, (weq hq' hq d2 hlb (by omega) hj).2 g4⟩
    obtain ⟨b2, v2, hv2, e2, -, -, hn2, -⟩ := cd hq'
    obtain rfl := rank_inj P (live_of_pos hv2) d2 e2
    obtain ⟨d', f1, -, -, f4⟩ := hn2 j' g1
    rw [g2] at f1
    obtain rfl := Option.some.inj f1
    exact f4
  · intro c q j j' hq hj hj' e
    obtain ⟨b, v, hv, rfl, -, -, hn, -⟩ := cd hq
    obtain ⟨d, d1, d2, d3, d4⟩ := hn j hj
    obtain ⟨d', d1', d2', d3', d4'⟩ := hn j' hj'
    rw [d4, d4'] at e
    exact hsh.simple b j j' hj hj' (live_of_pos hv) (by rw [d1, d1', rank_inj P d2 d2' e])
  · intro c q z hq hz
    obtain ⟨b, v, hv, -, rfl, hw, hn, -⟩ := cd hq
    obtain ⟨k, x, bb, g1, g2⟩ := hsh.cone hv (z := z) fun j hj => by
      obtain ⟨jj, y, w1, w2, w3, w4, w5⟩ := hw j hj
      rw [hhgt z w1 w2]
      exact (sgn z w4 w5 w3).2.1.2 (hz j hj)
    refine ⟨k, x, fun j hj => ?_, g2⟩
    obtain ⟨f1, f2, f3, f4⟩ := g1 j hj
    obtain ⟨d, d1, d2, d3, d4⟩ := hn j hj
    rw [d1] at f2
    obtain rfl := Option.some.inj f2
    obtain ⟨q', hq'⟩ := inv d2
    refine ⟨f1, ⟨q', by rw [d4]; exact hq', ?_⟩, fun h0 => ?_⟩
    · obtain ⟨b2, v2, hv2, e2, e3, -⟩ := cd hq'
      obtain rfl := rank_inj P (live_of_pos hv2) d2 e2
      rw [hv2] at f3
      rw [e3]
      exact Option.some.inj f3
    · obtain ⟨jj, y, w1, w2, w3, w4, w5⟩ := hw ((j + 1) % 3) (by omega)
      have n3 := (hsh.nb hj (live_of_pos hv) d1 f3).2.2
      have hz0 : hgt (cellPl (T.P.pts a) (10 * ρ) (loc.map T.P.pts)) (P.wall b ((j + 1) % 3)) z = 0 := by
        rw [hhgt z w1 w2]
        exact (sgn z w4 w5 w3).1.2 h0
      rw [hz0] at f4
      rcases mul_eq_zero.1 f4 with g | g
      · exact g
      · rw [g] at n3; exact absurd n3 (lt_irrefl _)
  · intro c q hq
    obtain ⟨b, v, hv, -, hxv, hw, -, ow, e1, e2⟩ := cd hq
    subst hxv
    obtain ⟨o1, o2⟩ := cornerOwner_spec (ghost := ghostSeed T xs) (pts := T.P.pts) (v := q.x) (rv := Real.sqrt (distSq3 q.x (T.P.pts a))) loc none
    obtain ⟨g1, g2, g3⟩ := (o1 ow e1).resolve_left (by simp)
    have hlt := hloc ow g1
    obtain ⟨ob, sb, n1, n2, n3, n4⟩ := meshSeed_spec h hlt
    rw [e2] at n1
    obtain rfl := Option.some.inj n1
    refine ⟨⟨sb, n3, (ghostSeed_false n2).1 g2⟩, ?_, ?_⟩
    · rw [sqrt_distSq3, sqrt_distSq3, hxo, (oldAt_pos h hlt e2).1] at g3
      by_contra hno
      have hq0 : q.owner ≠ o := fun e => hno (by rw [e]; unfold excess; ring)
      have hqj : ∀ j, j < 3 → q.owner ≠ q.seeds j := fun j hj e => hno (by rw [e]; exact onx c q j hq hj)
      have d01 : q.seeds 0 ≠ q.seeds 1 := fun e => absurd (diff c q 0 1 hq (by omega) (by omega) e) (by omega)
      have d02 : q.seeds 0 ≠ q.seeds 2 := fun e => absurd (diff c q 0 2 hq (by omega) (by omega) e) (by omega)
      have d12 : q.seeds 1 ≠ q.seeds 2 := fun e => absurd (diff c q 1 2 hq (by omega) (by omega) e) (by omega)
      have := hvc o (q.seeds 0) (q.seeds 1) (q.seeds 2) q.owner q.x (oldAt_pos h ha m1).2 (range c q 0 hq (by omega)).1 (range c q 1 hq (by omega)).1 (range c q 2 hq (by omega)).1 (oldAt_pos h hlt e2).2
        (range c q 0 hq (by omega)).2.symm (range c q 1 hq (by omega)).2.symm (range c q 2 hq (by omega)).2.symm d01 d02 d12 hq0 (hqj 0 (by omega)) (hqj 1 (by omega)) (hqj 2 (by omega))
        (excess_zero.1 (onx c q 0 hq (by omega))) (excess_zero.1 (onx c q 1 hq (by omega))) (excess_zero.1 (onx c q 2 hq (by omega))) (fun u hu => excess_le.1 (near c q u hq hu))
      rw [abs_lt] at g3
      linarith [g3.1]
    · intro y sy hy hry h0
      have hylt := (List.getElem?_eq_some_iff.1 hy).1
      obtain ⟨z, hz, ez⟩ := oldAt_onto h hylt
      obtain ⟨oz, sz, p1, p2, p3, p4⟩ := meshSeed_spec h hz
      rw [ez] at p1
      obtain rfl := Option.some.inj p1
      rw [hy] at p3
      obtain rfl := Option.some.inj p3
      have hzloc : z ∈ loc := by
        by_cases e : y = o
        · rw [e] at ez
          rw [oldAt_inj h hz ha ez m1]
          exact hself
        · obtain ⟨j, hj, ej⟩ := only c q y hq hylt e h0
          obtain ⟨jj, u, w1, w2, w3, w4, w5⟩ := hw j hj
          rw [ej] at w3
          rw [oldAt_inj h hz w4 ez w3]
          exact List.mem_of_getElem? w2
      obtain ⟨ow', f1, f2⟩ := o2 z (Or.inr ⟨hzloc, (ghostSeed_false p2).2 hry, by
        rw [sqrt_distSq3, sqrt_distSq3, hxo, (oldAt_pos h hz ez).1, ← excess_zero.1 h0, sub_self, abs_zero]
        norm_num⟩)
      rw [e1] at f1
      obtain rfl := Option.some.inj f1
      rw [newRank_eq h hlt e2, newRank_eq h hz ez]
      exact f2

end VoroCrust
