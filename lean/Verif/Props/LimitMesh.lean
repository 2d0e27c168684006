import Verif.Props.LimitExact

/-!
# The explicit mesh when corners of cells coincide (C102)
-/

namespace VoroCrust

open Classical

/-! ## Vertices of the diagram -/

/-- The only point as far from the seeds that are nearest to it is a corner of every cell that it belongs to. -/
theorem LimitCell.corner_all {pts : Nat → Nat → ℝ} {n i : Nat} {l : List MeshCorner} (h : LimitCell pts n i l) {z : Nat → ℝ} (hz : ∀ y, y < n → excess pts i y z ≤ 0)
    (hone : ∀ u, (∀ y, y < n → excess pts i y z = 0 → excess pts i y u = 0) → ∀ d, d < 3 → u d = z d) : ∃ (k : Nat) (q : MeshCorner), l[k]? = some q ∧ ∀ d, d < 3 → q.x d = z d := by
  obtain ⟨p, hp, e⟩ := h.span hz
  have haff : AffineFn fun u => ∑ y ∈ (Finset.range n).filter fun y => excess pts i y z = 0, excess pts i y u := by
    intro u v s t hst
    simp only
    rw [Finset.mul_sum, Finset.mul_sum, ← Finset.sum_add_distrib]
    exact Finset.sum_congr rfl fun y _ => excess_affine pts i y u v s t hst
  have hle : ∀ {k : Nat} {q : MeshCorner}, l[k]? = some q → ∀ y ∈ (Finset.range n).filter fun y => excess pts i y z = 0, excess pts i y q.x ≤ 0 := fun {k q} hq y hy => h.near k q y hq (Finset.mem_range.1 (Finset.mem_filter.1 hy).1)
  have h1 := hull_zero haff (by
    rintro v ⟨k, q, hq, rfl⟩
    exact Finset.sum_nonpos (hle hq)) hp (Finset.sum_eq_zero fun y hy => by rw [excess_congr e]; exact (Finset.mem_filter.1 hy).2)
  obtain ⟨v, ⟨k, q, hq, rfl⟩, hv⟩ := convexHull_nonempty_iff.1 ⟨p, h1⟩
  refine ⟨k, q, hq, hone q.x fun y hy h0 => ?_⟩
  exact (Finset.sum_eq_zero_iff_of_nonpos (hle hq)).1 hv y (Finset.mem_filter.2 ⟨Finset.mem_range.2 hy, h0⟩)

/-! ## Welding -/

/-- All cells are limits of exact ones. -/
structure LimitCells (xs : List SeedRec) (C : Cells) (rank : Nat → Nat) : Prop where
  ok : CellsOK xs C rank
  cell : ∀ i l, C i = some l → LimitCell (seedPos xs) xs.length i l
  owner : ∀ i l, C i = some l → ExactOwner xs rank i l

variable {xs : List SeedRec} {C : Cells} {rank : Nat → Nat}

theorem dist_zero {u v : Nat → ℝ} : distSq3 u v = 0 ↔ ∀ d, d < 3 → u d = v d := by
  unfold distSq3
  constructor
  · intro h d hd
    obtain ⟨z0, z1, z2⟩ := squares_zero h
    interval_cases d <;> linarith
  · intro h
    rw [h 0 (by omega), h 1 (by omega), h 2 (by omega)]
    ring

theorem nearestCorner_ne {v : Nat → ℝ} (ls : List MeshCorner) : ∀ (m : Nat) (b : Option (Nat × ℝ)), nearestCorner v ls m b = none → ls = [] ∧ b = none := by
  induction ls with
  | nil => intro m b h; exact ⟨rfl, h⟩
  | cons y ys ih =>
    intro m b h
    unfold nearestCorner at h
    split_ifs at h with g
    · exact absurd (ih _ _ h).2 (by simp)
    · exfalso
      obtain ⟨-, rfl⟩ := ih _ _ h
      exact g (by simp)

/-- The first corner of the list at the place. -/
theorem nearestCorner_first {v : Nat → ℝ} {l : List MeshCorner} (hex : ∃ (k : Nat) (q : MeshCorner), l[k]? = some q ∧ ∀ d, d < 3 → q.x d = v d) :
    ∃ (k : Nat) (q : MeshCorner), nearestCorner v l 0 none = some (k, 0) ∧ l[k]? = some q ∧ (∀ d, d < 3 → q.x d = v d) ∧ ∀ (k' : Nat) (q' : MeshCorner), l[k']? = some q' → (∀ d, d < 3 → q'.x d = v d) → k ≤ k' := by
  obtain ⟨k0, q0, hq0, hx0⟩ := hex
  cases hn : nearestCorner v l 0 none with
  | none =>
    obtain ⟨rfl, -⟩ := nearestCorner_ne l 0 none hn
    simp at hq0
  | some ja =>
    obtain ⟨j, dd⟩ := ja
    obtain ⟨g1, -, g3⟩ := nearestCorner_spec l 0 none (by simp) j dd hn
    obtain ⟨-, g2⟩ := nearestCorner_le l 0 none j dd hn
    obtain ⟨k, q, hq, hk, hdd⟩ := g1.resolve_left (by simp)
    rw [Nat.zero_add] at hk
    subst hk
    have h0 := g2 q0 (List.mem_of_getElem? hq0)
    rw [dist_zero.2 hx0, Real.sqrt_zero] at h0
    have hd0 : dd = 0 := le_antisymm h0 (by rw [hdd]; exact Real.sqrt_nonneg _)
    subst hd0
    refine ⟨j, q, rfl, hq, ?_, fun k' q' hq' hx' => ?_⟩
    · rw [← dist_zero]
      exact (Real.sqrt_eq_zero (by rw [distSq3_sq]; positivity)).1 hdd.symm
    · have := (g3 k' q' hq' (by rw [dist_zero.2 hx', Real.sqrt_zero])).resolve_left (by simp)
      omega

/-- The owner of a corner has a corner at its place, and the tag is the first of them. -/
theorem LimitCells.owned (h : LimitCells xs C rank) {i c : Nat} {q : MeshCorner} (hq : cornerAt C i c = some q) :
    ∃ k q', cornerAt C q.owner k = some q' ∧ (∀ d, d < 3 → q'.x d = q.x d) ∧ q'.owner = q.owner ∧ tagCorners C i c = some (q.owner, k) ∧
      ∀ k' q2, cornerAt C q.owner k' = some q2 → (∀ d, d < 3 → q2.x d = q.x d) → k ≤ k' := by
  obtain ⟨l, hl, hlc⟩ := cornerAt_eq.1 hq
  have he := h.cell i l hl
  obtain ⟨⟨so, o1, o2⟩, o3, o4⟩ := h.owner i l hl c q hlc
  obtain ⟨lo, hlo⟩ := h.ok.tot _ so o1 o2
  have heo := h.cell _ lo hlo
  have hilt := h.ok.lt_of hl
  have holt := h.ok.lt_of hlo
  have on := fun j hj => he.on c q j hlc hj
  have rg := fun j hj => (he.range (j := j) hlc hj).1
  have hcor := heo.corner hilt (rg 0 (by omega)) (rg 1 (by omega)) (rg 2 (by omega)) (z := q.x) (fun y hy => by rw [excess_swap o3]; exact he.near c q y hlc hy) (by unfold excess at o3 ⊢; linarith) (on 0 (by omega)) (on 1 (by omega)) (on 2 (by omega))
    (fun u u0 u1 u2 => he.alone c q u hlc fun j hj => by
      interval_cases j
      · exact u0
      · exact u1
      · exact u2)
  obtain ⟨k, q', hn, hk, hx, hmin⟩ := nearestCorner_first hcor
  refine ⟨k, q', cornerAt_eq.2 ⟨lo, hlo, hk⟩, hx, ?_, ?_, ?_⟩
  · obtain ⟨⟨s', p1, p2⟩, p3, p4⟩ := h.owner _ lo hlo k q' hk
    have r1 := p4 q.owner so o1 o2 (by unfold excess; ring)
    have r2 := o4 q'.owner s' p1 p2 (by rw [← excess_swap o3, ← excess_congr hx]; exact p3)
    exact h.ok.inj _ _ (List.getElem?_eq_some_iff.1 p1).1 holt (le_antisymm r1 r2)
  · have e : tagCorners C i c = tagCorner C i c q := by
      unfold tagCorners
      rw [hl]
      simp only
      rw [hlc]
    rw [e]
    unfold tagCorner
    rw [hlo]
    simp only
    rw [hn]
    simp only
    rw [if_neg (by norm_num)]
  · intro k' q2 h2 hx2
    obtain ⟨lo', hlo', h3⟩ := cornerAt_eq.1 h2
    rw [hlo] at hlo'
    obtain rfl := Option.some.inj hlo'
    exact hmin k' q2 h3 hx2

/-- The vertex of a corner. -/
theorem LimitCells.vertex (h : LimitCells xs C rank) {f : Nat} {W : Welded} (hW : weldCorners C xs.length f = some (some W)) (hok : W.OK C) {i c : Nat} {q : MeshCorner} (hq : cornerAt C i c = some q) :
    ∃ k v p, cornerAt C q.owner k = some p ∧ (∀ d, d < 3 → p.x d = q.x d) ∧ W.ptr i c = some (q.owner, k) ∧ W.vertexOf i c = some v ∧ v < W.nv ∧ W.vertices v = some p.x ∧
      ∀ k' q2, cornerAt C q.owner k' = some q2 → (∀ d, d < 3 → q2.x d = q.x d) → k ≤ k' := by
  obtain ⟨k, q', hk, hx, hown, htag, hmin⟩ := h.owned hq
  obtain ⟨k2, q2, hk2, hx2, -, htag2, hmin2⟩ := h.owned hk
  rw [hown] at hk2 htag2 hmin2
  have hkk : k2 = k := le_antisymm (hmin2 k q' hk fun _ _ => rfl) (hmin k2 q2 hk2 fun d hd => by rw [hx2 d hd, hx d hd])
  rw [hkk] at htag2
  obtain ⟨s, kk, v, r1, r2, r3, r4, r5, -⟩ := hok.resolved i c ⟨q, hq⟩
  have hreach : ∀ b, Relation.ReflTransGen (TagStep C) (i, c) b → b = (i, c) ∨ b = (q.owner, k) := by
    intro b hb
    induction hb with
    | refl => exact Or.inl rfl
    | tail _ hs ih =>
      unfold TagStep at hs
      rcases ih with rfl | rfl
      · rw [htag] at hs; exact Or.inr (Option.some.inj hs).symm
      · rw [htag2] at hs; exact Or.inr (Option.some.inj hs).symm
  have hptr : W.ptr i c = some (q.owner, k) := by
    rcases hreach _ (weld_chain hW (i, c) _ r1) with g | g
    · rw [g] at r1
      have h0 : euclid 3 q'.x q.x = 0 := by rw [← sqrt_distSq3, dist_zero.2 hx, Real.sqrt_zero]
      rcases (hok.stays i c q hq).1 r1 with g1 | ⟨g1, g2⟩
      · have := g1 k q' hk
        rw [h0] at this
        norm_num at this
      · rw [r1, g1]
        rw [g1] at hk hmin
        have hle := hmin c q hq fun _ _ => rfl
        rcases Nat.lt_or_eq_of_le hle with g3 | g3
        · exact absurd h0 (g2 k q' g3 hk)
        · rw [g3]
    · rw [r1, g]
  rw [r1, Option.some.injEq, Prod.mk.injEq] at hptr
  obtain ⟨rfl, rfl⟩ := hptr
  obtain ⟨s2, k3, q3, t1, t2, t3, t4⟩ := hok.numbered v r5
  obtain ⟨rfl, rfl⟩ := hok.once _ _ _ _ _ r4 t3
  rw [hk] at t1
  obtain rfl := Option.some.inj t1
  exact ⟨kk, v, q', hk, hx, r1, by unfold Welded.vertexOf; rw [r1]; exact r4, r5, t4, hmin⟩

theorem LimitCells.vertex_eq (h : LimitCells xs C rank) {f : Nat} {W : Welded} (hW : weldCorners C xs.length f = some (some W)) (hok : W.OK C) {i c i' c' : Nat} {q q' : MeshCorner} (hq : cornerAt C i c = some q)
    (hq' : cornerAt C i' c' = some q') : W.vertexOf i c = W.vertexOf i' c' ↔ ∀ d, d < 3 → q.x d = q'.x d := by
  obtain ⟨k, v, p, a1, a2, a3, a4, a5, a6, a7⟩ := h.vertex hW hok hq
  obtain ⟨k', v', p', b1, b2, b3, b4, b5, b6, b7⟩ := h.vertex hW hok hq'
  constructor
  · intro e d hd
    rw [a4, b4] at e
    obtain rfl := Option.some.inj e
    rw [a6] at b6
    have := Option.some.inj b6
    rw [← a2 d hd, ← b2 d hd, this]
  · intro e
    obtain ⟨l, hl, hlc⟩ := cornerAt_eq.1 hq
    obtain ⟨l', hl', hlc'⟩ := cornerAt_eq.1 hq'
    obtain ⟨⟨s, o1, o2⟩, o3, o4⟩ := h.owner i l hl c q hlc
    obtain ⟨⟨s', p1, p2⟩, p3, p4⟩ := h.owner i' l' hl' c' q' hlc'
    have hii : excess (seedPos xs) i i' q.x = 0 := by
      have e1 := (h.cell i l hl).near c q i' hlc (h.ok.lt_of hl')
      have e2 := (h.cell i' l' hl').near c' q' i hlc' (h.ok.lt_of hl)
      rw [← excess_congr e] at e2
      unfold excess at e1 e2 ⊢
      linarith
    have hown : q.owner = q'.owner := by
      refine h.ok.inj _ _ (List.getElem?_eq_some_iff.1 o1).1 (List.getElem?_eq_some_iff.1 p1).1 (le_antisymm (o4 _ s' p1 p2 ?_) (p4 _ s o1 o2 ?_))
      · rw [← excess_swap hii, excess_congr e]; exact p3
      · rw [← excess_congr e, excess_swap hii]; exact o3
    rw [← hown] at b1 b3 b7
    have : k = k' := le_antisymm (a7 k' p' b1 fun d hd => by rw [b2 d hd, e d hd]) (b7 k p a1 fun d hd => by rw [a2 d hd, e d hd])
    unfold Welded.vertexOf
    rw [a3, b3, this]

/-! ## Where the faces come from -/

theorem seedFaces_inv {W : Welded} {f i : Nat} {l : List MeshCorner} (nbs : List Nat) : ∀ {fs : List MeshFace}, seedFaces xs W f i l nbs = some (some fs) → ∀ g ∈ fs,
    g.seed = i ∧ g.nbr ∈ nbs ∧ 3 ≤ g.verts.length ∧ (∃ s, xs[g.nbr]? = some s ∧ ¬ (g.nbr < i ∧ s.region ≠ 0)) ∧ faceWalk l (W.vertexOf i) g.nbr (firstCorner l g.nbr) f 0 (firstCorner l g.nbr) [] = some (some g.verts) := by
  induction nbs with
  | nil =>
    intro fs e g hg
    obtain rfl := Option.some.inj (Option.some.inj e)
    simp at hg
  | cons b nbs ih =>
    intro fs e g hg
    unfold seedFaces at e
    cases hb : xs[b]? with
    | none => rw [hb] at e; simp at e
    | some sb =>
      rw [hb] at e
      simp only at e
      split_ifs at e with hc
      · obtain ⟨h1, h2, h3⟩ := ih e g hg
        exact ⟨h1, List.mem_cons_of_mem _ h2, h3⟩
      · cases hwk : faceWalk l (W.vertexOf i) b (firstCorner l b) f 0 (firstCorner l b) [] with
        | none => rw [hwk] at e; simp [andThen] at e
        | some o =>
          cases o with
          | none => rw [hwk] at e; simp [andThen] at e
          | some fc =>
            rw [hwk] at e
            simp only [andThen] at e
            cases hr : seedFaces xs W f i l nbs with
            | none => rw [hr] at e; simp at e
            | some o =>
              cases o with
              | none => rw [hr] at e; simp at e
              | some gs =>
                rw [hr] at e
                obtain rfl := Option.some.inj (Option.some.inj e)
                unfold keepFace at hg
                split_ifs at hg with h3
                · rcases List.mem_cons.1 hg with rfl | hg
                  · exact ⟨rfl, List.mem_cons_self, h3, ⟨sb, hb, hc⟩, hwk⟩
                  · obtain ⟨h1, h2, h3⟩ := ih hr g hg
                    exact ⟨h1, List.mem_cons_of_mem _ h2, h3⟩
                · obtain ⟨h1, h2, h3⟩ := ih hr g hg
                  exact ⟨h1, List.mem_cons_of_mem _ h2, h3⟩

theorem writeFaces_inv {nf : Nat} (gs : List MeshFace) : ∀ {k : Nat} {a : Nat → Option MeshFace} {k' : Nat} {R : Nat → Option MeshFace}, writeFaces nf gs k a = some (k', R) → ∀ j g, R j = some g → a j = some g ∨ g ∈ gs := by
  induction gs with
  | nil =>
    intro k a k' R e j g hg
    simp only [writeFaces, Option.some.injEq, Prod.mk.injEq] at e
    obtain ⟨-, rfl⟩ := e
    exact Or.inl hg
  | cons x gs ih =>
    intro k a k' R e j g hg
    unfold writeFaces at e
    split_ifs at e with hk
    rcases ih e j g hg with h1 | h1
    · split_ifs at h1 with hj
      · exact Or.inr (by rw [Option.some.inj h1]; exact List.mem_cons_self)
      · exact Or.inl h1
    · exact Or.inr (List.mem_cons_of_mem _ h1)

theorem fillMeshFaces_inv {W : Welded} {f nf : Nat} (n : Nat) : ∀ {k : Nat} {R : Nat → Option MeshFace}, fillMeshFaces xs C W f nf n = some (some (k, R)) → ∀ j g, R j = some g → ∃ i fs, i < n ∧ facesAt xs C W f i = some (some fs) ∧ g ∈ fs := by
  induction n with
  | zero =>
    intro k R e j g hg
    unfold fillMeshFaces at e
    simp only [Option.some.injEq, Prod.mk.injEq] at e
    rw [← e.2] at hg
    simp at hg
  | succ n ih =>
    intro k R e j g hg
    unfold fillMeshFaces at e
    cases h1 : fillMeshFaces xs C W f nf n with
    | none => rw [h1] at e; simp [andThen] at e
    | some o =>
      cases o with
      | none => rw [h1] at e; simp [andThen] at e
      | some r =>
        obtain ⟨k0, R0⟩ := r
        rw [h1] at e
        simp only [andThen] at e
        cases h2 : facesAt xs C W f n with
        | none => rw [h2] at e; simp at e
        | some o2 =>
          cases o2 with
          | none => rw [h2] at e; simp at e
          | some fs =>
            rw [h2] at e
            simp only at e
            cases h3 : writeFaces nf fs k0 R0 with
            | none => rw [h3] at e; simp at e
            | some r2 =>
              rw [h3] at e
              obtain rfl : r2 = (k, R) := Option.some.inj (Option.some.inj e)
              rcases writeFaces_inv fs h3 j g hg with h4 | h4
              · obtain ⟨i, fs', a1, a2, a3⟩ := ih h1 j g h4
                exact ⟨i, fs', by omega, a2, a3⟩
              · exact ⟨n, fs, by omega, h2, h4⟩

/-- The faces of the mesh are those of the cells. -/
theorem mesh_faces {f : Nat} {W : Welded} (hW : weldCorners C xs.length f = some (some W)) {M : VMesh} (hM : meshOfCells xs C f = some (some M)) :
    (M.nv = W.nv ∧ M.vertices = W.vertices) ∧ (∀ i, i < xs.length → ∃ fs, facesAt xs C W f i = some (some fs) ∧ ∀ g ∈ fs, ∃ j, j < M.nf ∧ M.faces j = some g) ∧
      ∀ j g, M.faces j = some g → ∃ i fs, i < xs.length ∧ facesAt xs C W f i = some (some fs) ∧ g ∈ fs := by
  unfold meshOfCells at hM
  rw [hW] at hM
  simp only [andThen] at hM
  cases hc : countMeshFaces xs C W f xs.length with
  | none => rw [hc] at hM; simp at hM
  | some o =>
    cases o with
    | none => rw [hc] at hM; simp at hM
    | some nf =>
      rw [hc] at hM
      simp only at hM
      cases hr : fillMeshFaces xs C W f nf xs.length with
      | none => rw [hr] at hM; simp at hM
      | some o =>
        cases o with
        | none => rw [hr] at hM; simp at hM
        | some r =>
          obtain ⟨k, R⟩ := r
          rw [hr] at hM
          obtain rfl := Option.some.inj (Option.some.inj hM)
          obtain ⟨g1, g2⟩ := fillMeshFaces_mem xs.length hr
          refine ⟨⟨rfl, rfl⟩, fun i hi => ?_, fillMeshFaces_inv xs.length hr⟩
          obtain ⟨fs, e1, e2⟩ := g2 i hi
          refine ⟨fs, e1, fun g hg => ?_⟩
          obtain ⟨j, hj, ej⟩ := e2 g hg
          exact ⟨j, by simp only; omega, ej⟩

/-! ## What the mesh is -/

/-- A vertex of the Voronoi cell of an inner seed: no other point is as far from all the seeds nearest to it. -/
def IsDiagramVertex (xs : List SeedRec) (z : Nat → ℝ) : Prop :=
  ∃ i, InnerSeed xs i ∧ InVoronoi xs i z ∧ ∀ u, (∀ y, y < xs.length → CommonFace xs i y z → euclid 3 u (seedPos xs i) = euclid 3 u (seedPos xs y)) → ∀ d, d < 3 → u d = z d

/-- The common face of two cells has three points that are not on a line. -/
def FlatFace (xs : List SeedRec) (i y : Nat) : Prop := ∃ a b c, NotLine a b c ∧ CommonFace xs i y a ∧ CommonFace xs i y b ∧ CommonFace xs i y c

/-- The mesh is the Voronoi diagram of the inner seeds, with degenerate vertices. -/
structure IsDiagramMesh (xs : List SeedRec) (M : VMesh) : Prop where
  vertex : ∀ v, v < M.nv → ∃ u, M.vertices v = some u ∧ IsDiagramVertex xs u
  vertices : ∀ z, IsDiagramVertex xs z → ∃ v u, v < M.nv ∧ M.vertices v = some u ∧ ∀ k, k < 3 → u k = z k
  distinct : ∀ v v' u u', v < M.nv → v' < M.nv → M.vertices v = some u → M.vertices v' = some u' → (∀ k, k < 3 → u k = u' k) → v = v'
  face : ∀ k, k < M.nf → ∃ g, M.faces k = some g ∧ IsVoronoiFace xs M g ∧ FlatFace xs g.seed g.nbr
  faces : ∀ i y, InnerSeed xs i → y < xs.length → y ≠ i → FlatFace xs i y → ∃ k g, k < M.nf ∧ M.faces k = some g ∧ ((g.seed = i ∧ g.nbr = y) ∨ (g.seed = y ∧ g.nbr = i))
  once : ∀ k k' g g', k < M.nf → k' < M.nf → M.faces k = some g → M.faces k' = some g' → (g.seed = g'.seed ∧ g.nbr = g'.nbr) ∨ (g.seed = g'.nbr ∧ g.nbr = g'.seed) → k = k'

/-- At most 102 seeds are nearest to any point of an inner cell. -/
def FewNearest (xs : List SeedRec) : Prop := ∀ i z, InnerSeed xs i → InVoronoi xs i z → ((Finset.range xs.length).filter fun y => euclid 3 z (seedPos xs i) = euclid 3 z (seedPos xs y)).card ≤ 102

theorem flat_wide {i y : Nat} : FlatFace xs i y ↔ Wide (seedPos xs) xs.length i y := by
  unfold FlatFace Wide
  constructor
  · rintro ⟨a, b, c, h, ha, hb, hc⟩
    refine ⟨a, b, c, h, fun z hz => ?_⟩
    rw [← commonFace_iff]
    simp only [List.mem_cons, List.not_mem_nil, or_false] at hz
    rcases hz with rfl | rfl | rfl
    · exact ha
    · exact hb
    · exact hc
  · rintro ⟨a, b, c, h, hz⟩
    exact ⟨a, b, c, h, commonFace_iff.2 (hz a (by simp)), commonFace_iff.2 (hz b (by simp)), commonFace_iff.2 (hz c (by simp))⟩

/-- The walk round a face. -/
theorem LimitCells.walk (h : LimitCells xs C rank) (hfew : FewNearest xs) {f : Nat} {W : Welded} (hW : weldCorners C xs.length f = some (some W)) (hok : W.OK C) {i y : Nat} {l : List MeshCorner} (hl : C i = some l) (hlen : l.length ≤ f)
    (hex : ∃ (c : Nat) (q : MeshCorner) (j : Nat), l[c]? = some q ∧ j < 3 ∧ q.seeds j = y) :
    ∃ (m : Nat) (cyc v : Nat → Nat), 3 ≤ m ∧ Together v m ∧ faceWalk l (W.vertexOf i) y (firstCorner l y) f 0 (firstCorner l y) [] = some (some (firsts v m)) ∧ cyc m = cyc 0 ∧
      (∀ t, t < m → W.vertexOf i (cyc t) = some (v t) ∧ ∃ q j, l[cyc t]? = some q ∧ j < 3 ∧ q.seeds j = y) ∧
      (∀ (c : Nat) (q : MeshCorner) (j : Nat), l[c]? = some q → j < 3 → q.seeds j = y → ∃ t, t < m ∧ cyc t = c) ∧
      ∀ t, t < m → ∃ (q q' : MeshCorner) (e : Nat), l[cyc t]? = some q ∧ l[cyc (t + 1)]? = some q' ∧ e < xs.length ∧ e ≠ i ∧ e ≠ y ∧ (∃ j, j < 3 ∧ q.seeds j = e) ∧ ∃ j, j < 3 ∧ q'.seeds j = e := by
  have he := h.cell i l hl
  have hy : y < xs.length ∧ y ≠ i := by
    obtain ⟨c, q, j, h1, h2, rfl⟩ := hex
    exact he.range h1 h2
  obtain ⟨m, cyc, e, m3, ml, hcyc, cinj, call, einj, cedge⟩ := he.ring hl hex
  have hat : ∀ t, t < m → ∃ q', l[cyc t]? = some q' ∧ cornerAt C i (cyc t) = some q' ∧ ∃ j', j' < 3 ∧ q'.seeds j' = y := fun t ht => by
    obtain ⟨q', j', e1, e2, e3, -⟩ := hcyc.step t ht
    obtain ⟨l', hl', e4⟩ := cornerAt_eq.1 e1
    rw [hl] at hl'
    obtain rfl := Option.some.inj hl'
    exact ⟨q', e4, e1, j', e2, e3⟩
  have hv : ∀ t, ∃ v, t < m → W.vertexOf i (cyc t) = some v := fun t => by
    by_cases ht : t < m
    · obtain ⟨q', -, e1, -⟩ := hat t ht
      obtain ⟨k, v, p, -, -, -, e2, -⟩ := h.vertex hW hok e1
      exact ⟨v, fun _ => e2⟩
    · exact ⟨0, fun g => absurd g ht⟩
  choose v hv using hv
  have same : ∀ {t t' : Nat} {q q' : MeshCorner}, t < m → t' < m → l[cyc t]? = some q → l[cyc t']? = some q' → (v t = v t' ↔ ∀ d, d < 3 → q.x d = q'.x d) := by
    intro t t' q q' ht ht' e1 e2
    have := h.vertex_eq hW hok (cornerAt_eq.2 ⟨l, hl, e1⟩) (cornerAt_eq.2 ⟨l, hl, e2⟩)
    rw [hv t ht, hv t' ht', Option.some.injEq] at this
    exact this
  have hto : Together v m := by
    intro a b c d hab hbc hcd hdm
    obtain ⟨qa, a1, -⟩ := hat a (by omega)
    obtain ⟨qb, b1, -⟩ := hat b (by omega)
    obtain ⟨qc, c1, -⟩ := hat c (by omega)
    obtain ⟨qd, d1, -⟩ := hat d (by omega)
    constructor
    · intro hac
      by_contra hno
      push Not at hno
      exact he.apart hl hcyc cinj hbc hcd hdm (show a < m by omega) (Or.inl hab) b1 c1 d1 a1 ((same (by omega) (by omega) a1 c1).1 hac) (fun g => hno.1 (by rw [hac]; exact (same (by omega) (by omega) b1 c1).2 g)) (fun g => hno.2 (by rw [hac]; exact (same (by omega) (by omega) d1 c1).2 g))
    · intro hbd
      by_contra hno
      push Not at hno
      exact he.apart hl hcyc cinj hab hbc (show c < m by omega) hdm (Or.inr hcd) a1 b1 c1 d1 ((same (by omega) (by omega) d1 b1).1 hbd.symm) (fun g => hno.1 ((same (by omega) (by omega) a1 b1).2 g)) (fun g => hno.2 ((same (by omega) (by omega) c1 b1).2 g))
  have hcnt : ∀ x, ((Finset.range m).filter fun t => v t = x).card ≤ 100 := by
    intro x
    by_cases hne : ((Finset.range m).filter fun t => v t = x).Nonempty
    · obtain ⟨t0, ht0⟩ := hne
      obtain ⟨r0, e0⟩ := Finset.mem_filter.1 ht0
      rw [Finset.mem_range] at r0
      obtain ⟨q0, q1, -⟩ := hat t0 r0
      have hin : InVoronoi xs i q0.x := fun u hu => excess_le.1 (he.near _ q0 u q1 hu)
      have hf := hfew i q0.x (h.ok.dom i l hl) hin
      generalize hF : (Finset.range xs.length).filter (fun y => euclid 3 q0.x (seedPos xs i) = euclid 3 q0.x (seedPos xs y)) = F at hf
      have hmem : ∀ {u : Nat}, u ∈ F ↔ u < xs.length ∧ excess (seedPos xs) i u q0.x = 0 := fun {u} => by rw [← hF, Finset.mem_filter, Finset.mem_range, excess_zero]
      have hi : i ∈ F := hmem.2 ⟨h.ok.lt_of hl, by unfold excess; ring⟩
      have hyF : y ∈ F.erase i := Finset.mem_erase.2 ⟨hy.2, hmem.2 ⟨hy.1, by
        obtain ⟨q', e1, -, j, e2, e3⟩ := hat t0 r0
        rw [q1] at e1
        obtain rfl := Option.some.inj e1
        rw [← e3]
        exact he.on _ q0 j q1 e2⟩⟩
      have hcard : ((Finset.range m).filter fun t => v t = x).card ≤ ((F.erase i).erase y).card := by
        refine Finset.card_le_card_of_injOn e (fun t ht => ?_) (fun t ht t' ht' heq => ?_)
        · obtain ⟨r1, e1⟩ := Finset.mem_filter.1 (Finset.mem_coe.1 ht)
          rw [Finset.mem_range] at r1
          obtain ⟨q, q', g1, -, g2, g3, g4, ⟨j, g5, g6⟩, -⟩ := cedge t r1
          refine Finset.mem_coe.2 (Finset.mem_erase.2 ⟨g4, Finset.mem_erase.2 ⟨g3, hmem.2 ⟨g2, ?_⟩⟩⟩)
          rw [← excess_congr ((same r1 r0 g1 q1).1 (e1.trans e0.symm)), ← g6]
          exact he.on _ q j g1 g5
        · exact einj t t' (Finset.mem_range.1 (Finset.mem_filter.1 (Finset.mem_coe.1 ht)).1) (Finset.mem_range.1 (Finset.mem_filter.1 (Finset.mem_coe.1 ht')).1) heq
      rw [Finset.card_erase_of_mem hyF, Finset.card_erase_of_mem hi] at hcard
      omega
    · rw [Finset.not_nonempty_iff_eq_empty] at hne
      rw [hne]
      simp
  have hw := faceWalk_firsts hcyc hl hv hto hcnt f 0 (by omega) (by omega)
  rw [← hcyc.firstCorner (by omega) hl] at hw
  refine ⟨m, cyc, v, m3, hto, hw, hcyc.close, fun t ht => ⟨hv t ht, ?_⟩, call, fun t ht => ?_⟩
  · obtain ⟨q', e1, -, e2⟩ := hat t ht
    obtain ⟨j, e2, e3⟩ := e2
    exact ⟨q', j, e1, e2, e3⟩
  · obtain ⟨q, q', g⟩ := cedge t ht
    exact ⟨q, q', e t, g⟩

/-- All points on a line. -/
def onLine (p p' : Nat → ℝ) : Set (Nat → ℝ) := {z | ∃ s : ℝ, ∀ d, d < 3 → z d = p d + s * (p' d - p d)}

theorem onLine_convex (p p' : Nat → ℝ) : Convex ℝ (onLine p p') := by
  rintro u ⟨a, ha⟩ v ⟨b, hb⟩ s t - - hst
  refine ⟨s * a + t * b, fun d hd => ?_⟩
  simp only [Pi.add_apply, Pi.smul_apply, smul_eq_mul]
  rw [ha d hd, hb d hd]
  linear_combination p d * hst

theorem onLine_not {p p' a b c : Nat → ℝ} (ha : a ∈ onLine p p') (hb : b ∈ onLine p p') (hc : c ∈ onLine p p') : ¬ NotLine a b c := by
  obtain ⟨s, ha⟩ := ha
  obtain ⟨t, hb⟩ := hb
  obtain ⟨r, hc⟩ := hc
  unfold NotLine
  rw [ha 0 (by omega), ha 1 (by omega), ha 2 (by omega), hb 0 (by omega), hb 1 (by omega), hb 2 (by omega), hc 0 (by omega), hc 1 (by omega), hc 2 (by omega)]
  push Not
  exact ⟨by ring, by ring, by ring⟩

/-- From limits of exact cells the diagram is built. -/
theorem limit_mesh (h : LimitCells xs C rank) (hs : SeedsApart (seedPos xs) xs.length) (hfew : FewNearest xs) : ∃ F, ∀ f, F ≤ f → ∃ M, meshOfCells xs C f = some (some M) ∧ IsDiagramMesh xs M := by
  obtain ⟨F0, hF0⟩ := mesh_ok h.ok
  obtain ⟨B, hB⟩ := slots_bounded C xs.length
  refine ⟨max F0 B, fun f hf => ?_⟩
  obtain ⟨W, eW, hW, M, eM, hM1, hM2⟩ := hF0 f (le_trans (le_max_left _ _) hf)
  have hlen : ∀ i l, C i = some l → l.length ≤ f := by
    intro i l hl
    refine le_trans ?_ (le_trans (le_max_right _ _) hf)
    cases hn : l.length with
    | zero => omega
    | succ m => exact hB i m (h.ok.lt_of hl) (isSlot_iff.2 ⟨l, hl, by omega⟩)
  obtain ⟨hMW, hput, hfrom⟩ := mesh_faces eW eM
  have hcell : ∀ {i : Nat}, InnerSeed xs i → ∃ l, C i = some l := fun {i} hi => by
    obtain ⟨s, h1, h2⟩ := hi
    exact h.ok.tot i s h1 h2
  -- the face in a list of vertices
  have good : ∀ {i y : Nat} {l : List MeshCorner} {vs : List Nat}, C i = some l → y ∈ cellNeighbors l → faceWalk l (W.vertexOf i) y (firstCorner l y) f 0 (firstCorner l y) [] = some (some vs) →
      (3 ≤ vs.length ↔ Wide (seedPos xs) xs.length i y) ∧ (3 ≤ vs.length → IsVoronoiFace xs M ⟨vs, i, y⟩) := by
    intro i y l vs hl hy hw
    have he := h.cell i l hl
    have hilt := h.ok.lt_of hl
    obtain ⟨qn, hqn, jn, hjn, ejn⟩ := mem_cellNeighbors.1 hy
    obtain ⟨cn, hcn⟩ := List.mem_iff_getElem?.1 hqn
    have hex : ∃ (c : Nat) (q : MeshCorner) (j : Nat), l[c]? = some q ∧ j < 3 ∧ q.seeds j = y := ⟨cn, qn, jn, hcn, hjn, ejn⟩
    obtain ⟨hylt, hyi⟩ : y < xs.length ∧ y ≠ i := by rw [← ejn]; exact he.range hcn hjn
    obtain ⟨m, cyc, v, m3, hto, hwalk, hclose, hat, call, cedge⟩ := h.walk hfew eW hW hl (hlen i l hl) hex
    rw [hw] at hwalk
    obtain rfl := Option.some.inj (Option.some.inj hwalk)
    have hplace : ∀ t, t < m → ∀ q', l[cyc t]? = some q' → v t < M.nv ∧ ∃ u, M.vertices (v t) = some u ∧ ∀ d, d < 3 → u d = q'.x d := by
      intro t ht q' hq'
      obtain ⟨k, v', p, -, e1, -, e2, e3, e4, -⟩ := h.vertex eW hW (cornerAt_eq.2 ⟨l, hl, hq'⟩)
      rw [(hat t ht).1] at e2
      obtain rfl := Option.some.inj e2
      rw [hMW.1, hMW.2]
      exact ⟨e3, p.x, e4, e1⟩
    have same : ∀ {t t' : Nat} {q q' : MeshCorner}, t < m → t' < m → l[cyc t]? = some q → l[cyc t']? = some q' → (v t = v t' ↔ ∀ d, d < 3 → q.x d = q'.x d) := by
      intro t t' q q' ht ht' e1 e2
      have := h.vertex_eq eW hW (cornerAt_eq.2 ⟨l, hl, e1⟩) (cornerAt_eq.2 ⟨l, hl, e2⟩)
      rw [(hat t ht).1, (hat t' ht').1, Option.some.injEq] at this
      exact this
    have hcom : ∀ {c : Nat} {q : MeshCorner} {j : Nat}, l[c]? = some q → j < 3 → (∀ u, u < xs.length → excess (seedPos xs) i u q.x ≤ 0) ∧ excess (seedPos xs) i (q.seeds j) q.x = 0 := fun {c q j} h1 h2 => ⟨fun u hu => he.near c q u h1 hu, he.on c q j h1 h2⟩
    have hwide : 3 ≤ (firsts v m).length ↔ Wide (seedPos xs) xs.length i y := by
      constructor
      · intro h3
        have get : ∀ j, j < (firsts v m).length → ∃ t, t < m ∧ (firsts v m)[j]? = some (v t) := fun j hj => by
          obtain ⟨t, t1, t2⟩ := mem_firsts.1 (List.getElem_mem hj)
          exact ⟨t, t1, by rw [List.getElem?_eq_getElem hj, t2]⟩
        obtain ⟨a, a1, a2⟩ := get 0 (by omega)
        obtain ⟨b, b1, b2⟩ := get 1 (by omega)
        obtain ⟨c, c1, c2⟩ := get 2 (by omega)
        have ne : ∀ {j j' x x' : Nat}, (firsts v m)[j]? = some x → (firsts v m)[j']? = some x' → j ≠ j' → x ≠ x' := fun {j j' x x'} h1 h2 hne e => by
          obtain ⟨l1, l2⟩ := List.getElem?_eq_some_iff.1 h1
          obtain ⟨l3, l4⟩ := List.getElem?_eq_some_iff.1 h2
          exact hne ((List.Nodup.getElem_inj_iff (firsts_nodup m)).1 (by rw [l2, l4, e]))
        obtain ⟨-, qa, ja, a3, a4, a5⟩ := hat a a1
        obtain ⟨-, qb, jb, b3, b4, b5⟩ := hat b b1
        obtain ⟨-, qc, jc, c3, c4, c5⟩ := hat c c1
        refine ⟨qa.x, qb.x, qc.x, he.spread a3 b3 c3 (fun g => ne a2 b2 (by omega) ((same a1 b1 a3 b3).2 g)) (fun g => ne a2 c2 (by omega) ((same a1 c1 a3 c3).2 g)) (fun g => ne b2 c2 (by omega) ((same b1 c1 b3 c3).2 g)), fun z hz => ?_⟩
        simp only [List.mem_cons, List.not_mem_nil, or_false] at hz
        rcases hz with rfl | rfl | rfl
        · rw [← a5]; exact hcom a3 a4
        · rw [← b5]; exact hcom b3 b4
        · rw [← c5]; exact hcom c3 c4
      · intro hwd
        by_contra hlt
        -- at most two places
        obtain ⟨t0, t1, r0, r1, hall⟩ : ∃ t0 t1, t0 < m ∧ t1 < m ∧ ∀ t, t < m → v t = v t0 ∨ v t = v t1 := by
          have hmem : ∀ t, t < m → v t ∈ firsts v m := fun t ht => mem_firsts.2 ⟨t, ht, rfl⟩
          have hback : ∀ x, x ∈ firsts v m → ∃ t, t < m ∧ v t = x := fun x hx => mem_firsts.1 hx
          match hv : firsts v m with
          | [] => rw [hv] at hmem; exact absurd (hmem 0 (by omega)) (by simp)
          | [x] =>
            rw [hv] at hmem
            obtain ⟨t, h1, h2⟩ := hback x (by rw [hv]; simp)
            exact ⟨t, t, h1, h1, fun t' ht' => Or.inl (by rw [h2]; simpa using hmem t' ht')⟩
          | [x, x'] =>
            rw [hv] at hmem
            obtain ⟨t, h1, h2⟩ := hback x (by rw [hv]; simp)
            obtain ⟨t', h3, h4⟩ := hback x' (by rw [hv]; simp)
            exact ⟨t, t', h1, h3, fun t2 ht2 => by rw [h2, h4]; simpa using hmem t2 ht2⟩
          | _ :: _ :: _ :: _ => rw [hv] at hlt; simp at hlt
        obtain ⟨-, q0, -, p0, -⟩ := hat t0 r0
        obtain ⟨-, q1, -, p1, -⟩ := hat t1 r1
        have hsub : convexHull ℝ {v | ∃ (c : Nat) (q : MeshCorner), l[c]? = some q ∧ q.x = v ∧ ∃ j, j < 3 ∧ q.seeds j = y} ⊆ onLine q0.x q1.x := convexHull_min (by
          rintro u ⟨c, q, e1, rfl, j, e2, e3⟩
          obtain ⟨t, ht, rfl⟩ := call c q j e1 e2 e3
          rcases hall t ht with g | g
          · exact ⟨0, fun d hd => by rw [(same ht r0 e1 p0).1 g d hd]; ring⟩
          · exact ⟨1, fun d hd => by rw [(same ht r1 e1 p1).1 g d hd]; ring⟩) (onLine_convex _ _)
        have hon : ∀ z, ((∀ u, u < xs.length → excess (seedPos xs) i u z ≤ 0) ∧ excess (seedPos xs) i y z = 0) → z ∈ onLine q0.x q1.x := fun z hz => by
          obtain ⟨p, hp, e⟩ := (he.face_hull hs hilt hylt hyi hwd).2 hz
          obtain ⟨s, hs'⟩ := hsub hp
          exact ⟨s, fun d hd => by rw [← e d hd]; exact hs' d hd⟩
        obtain ⟨a, b, c, hn, hz⟩ := hwd
        exact onLine_not (hon a (hz a (by simp))) (hon b (hz b (by simp))) (hon c (hz c (by simp))) hn
    refine ⟨hwide, fun h3 => ?_⟩
    have hwd := hwide.1 h3
    have hon : ∀ t, t < m → ∀ u, M.vertices (v t) = some u → ∀ e, (∃ q' j', l[cyc t]? = some q' ∧ j' < 3 ∧ q'.seeds j' = e) → CommonFace xs i e u := by
      rintro t ht u hu e ⟨q', j', e1, e2, rfl⟩
      obtain ⟨-, u', hu', hx⟩ := hplace t ht q' e1
      rw [hu] at hu'
      obtain rfl := Option.some.inj hu'
      rw [commonFace_iff]
      exact ⟨fun w hw => by rw [excess_congr hx]; exact he.near _ q' w e1 hw, by rw [excess_congr hx]; exact he.on _ q' j' e1 e2⟩
    refine ⟨h.ok.dom i l hl, hylt, hyi, h3, firsts_nodup m, ?_, ?_, ?_, ?_⟩
    · intro w hw
      obtain ⟨t, ht, rfl⟩ := mem_firsts.1 hw
      obtain ⟨-, q', -, e1, -⟩ := hat t ht
      exact (hplace t ht q' e1).1
    · intro z
      show _ ↔ CommonFace xs i y z
      rw [commonFace_iff, ← he.face_hull hs hilt hylt hyi hwd]
      constructor
      · refine hull_proj ?_
        rintro u ⟨w, hw, hu⟩
        obtain ⟨t, ht, rfl⟩ := mem_firsts.1 hw
        obtain ⟨-, q', j', e1, e2⟩ := hat t ht
        obtain ⟨-, u', hu', hx⟩ := hplace t ht q' e1
        rw [hu] at hu'
        obtain rfl := Option.some.inj hu'
        exact ⟨q'.x, ⟨cyc t, q', e1, rfl, j', e2⟩, fun d hd => (hx d hd).symm⟩
      · refine hull_proj ?_
        rintro u ⟨c', q', e1, rfl, j', e2, e3⟩
        obtain ⟨t, ht, rfl⟩ := call c' q' j' e1 e2 e3
        obtain ⟨-, u', hu', hx⟩ := hplace t ht q' e1
        exact ⟨u', ⟨v t, mem_firsts.2 ⟨t, ht, rfl⟩, hu'⟩, hx⟩
    · intro w u hw hu hface
      simp only at hface
      rw [commonFace_iff] at hface
      rw [hMW.1] at hw
      rw [hMW.2] at hu
      obtain ⟨s2, k2, q2, t1, t2, t3, t4⟩ := hW.numbered w hw
      rw [hu] at t4
      obtain rfl := Option.some.inj t4
      obtain ⟨l2, hl2, hlk⟩ := cornerAt_eq.1 t1
      have he2 := h.cell s2 l2 hl2
      have hi2 : excess (seedPos xs) i s2 q2.x = 0 := by
        have e1 := hface.1 s2 (h.ok.lt_of hl2)
        have e2 := he2.near k2 q2 i hlk (h.ok.lt_of hl)
        unfold excess at e1 e2 ⊢
        linarith
      have on := fun j hj => he2.on k2 q2 j hlk hj
      have rg := fun j hj => (he2.range (j := j) hlk hj).1
      obtain ⟨k3, q3, e1, e2⟩ := he.corner (h.ok.lt_of hl2) (rg 0 (by omega)) (rg 1 (by omega)) (rg 2 (by omega)) hface.1 hi2 (on 0 (by omega)) (on 1 (by omega)) (on 2 (by omega)) (fun u u0 u1 u2 => he2.alone k2 q2 u hlk fun j hj => by
        interval_cases j
        · exact u0
        · exact u1
        · exact u2)
      obtain ⟨k4, q4, j4, f1, f2, f3, f4⟩ := he.named hs hilt hylt hyi hwd e1 (by rw [excess_congr e2]; exact hface.2)
      obtain ⟨t, ht, rfl⟩ := call k4 q4 j4 f1 f2 f3
      have hvv := (h.vertex_eq eW hW (cornerAt_eq.2 ⟨l, hl, f1⟩) t1).2 fun d hd => by rw [f4 d hd, e2 d hd]
      rw [(hat t ht).1] at hvv
      unfold Welded.vertexOf at hvv
      rw [t2] at hvv
      simp only at hvv
      rw [t3] at hvv
      exact mem_firsts.2 ⟨t, ht, Option.some.inj hvv⟩
    · intro t w w' u u' hw hw' hu hu'
      simp only at hw hw' ⊢
      obtain ⟨hlt, -⟩ := List.getElem?_eq_some_iff.1 hw
      have key : ∀ t1 t2, t1 < m → t2 < m → cyc (t1 + 1) = cyc t2 → v t1 = w → v t2 = w' → ∃ e, e < xs.length ∧ e ≠ i ∧ e ≠ y ∧ CommonFace xs i e u ∧ CommonFace xs i e u' := by
        rintro t1 t2 r1 r2 ec rfl rfl
        obtain ⟨q1, q2, e, a1, a2, a3, a4, a5, ⟨j1, b1, b2⟩, ⟨j2, d1, d2⟩⟩ := cedge t1 r1
        rw [ec] at a2
        exact ⟨e, a3, a4, a5, hon t1 r1 u hu e ⟨q1, j1, a1, b1, b2⟩, hon t2 r2 u' hu' e ⟨q2, j2, a2, d1, d2⟩⟩
      by_cases hlast : t + 1 = (firsts v m).length
      · rw [hlast, Nat.mod_self] at hw'
        obtain ⟨t1, r1, r2, r3⟩ := firsts_last (by omega) hto hw hlast.symm (by omega)
        have hhead := firsts_head (v := v) (t := m) (by omega)
        rw [List.head?_eq_getElem?, hw'] at hhead
        refine key t1 ((t1 + 1) % m) r1 (Nat.mod_lt _ (by omega)) ?_ r2 (by rw [r3]; exact (Option.some.inj hhead).symm)
        by_cases hm : t1 + 1 = m
        · rw [hm, Nat.mod_self, hclose]
        · rw [Nat.mod_eq_of_lt (by omega)]
      · rw [Nat.mod_eq_of_lt (by omega)] at hw'
        obtain ⟨t1, r1, r2, r3⟩ := firsts_next hto hw hw'
        exact key t1 (t1 + 1) (by omega) r1 rfl r2 r3
  -- a wide face is listed on one side
  have list : ∀ {i y : Nat} {l : List MeshCorner}, C i = some l → y < xs.length → y ≠ i → Wide (seedPos xs) xs.length i y → (∀ s, xs[y]? = some s → s.region = 0 ∨ i ≤ y) → ∃ k g, k < M.nf ∧ M.faces k = some g ∧ g.seed = i ∧ g.nbr = y := by
    intro i y l hl hylt hyi hwd hside
    have he := h.cell i l hl
    have hex := he.wall hs (h.ok.lt_of hl) hylt hyi hwd
    obtain ⟨m, cyc, v, -, -, hwalk, -⟩ := h.walk hfew eW hW hl (hlen i l hl) hex
    obtain ⟨c, q, j, e1, e2, e3⟩ := hex
    have hnb : y ∈ cellNeighbors l := mem_cellNeighbors.2 ⟨q, List.mem_of_getElem? e1, j, e2, e3⟩
    obtain ⟨g1, -⟩ := good hl hnb hwalk
    obtain ⟨fs, f1, f2⟩ := hput i (h.ok.lt_of hl)
    unfold facesAt at f1
    rw [hl] at f1
    simp only at f1
    obtain ⟨s, hs'⟩ : ∃ s, xs[y]? = some s := ⟨_, List.getElem?_eq_getElem hylt⟩
    have := seedFaces_mem (g1.2 hwd) hs' (fun hh => by
      rcases hside s hs' with g | g
      · exact hh.2 g
      · omega) hwalk (cellNeighbors l) hnb fs f1
    obtain ⟨k, hk, ek⟩ := f2 _ this
    exact ⟨k, _, hk, ek, rfl, rfl⟩
  refine ⟨M, eM, ⟨fun v hv => ?_, fun z hz => ?_, fun v v' u u' hv hv' hu hu' hx => ?_, fun k hk => ?_, fun i y hi hy hyi hflat => ?_, hM2⟩⟩
  · rw [hMW.1] at hv
    obtain ⟨s, k, q, t1, t2, t3, t4⟩ := hW.numbered v hv
    obtain ⟨l, hl, hlk⟩ := cornerAt_eq.1 t1
    have he := h.cell s l hl
    refine ⟨q.x, by rw [hMW.2]; exact t4, s, h.ok.dom s l hl, fun y hy => excess_le.1 (he.near k q y hlk hy), fun u hu => he.alone k q u hlk fun j hj => ?_⟩
    rw [excess_zero]
    exact hu _ (he.range hlk hj).1 (commonFace_iff.2 ⟨fun w hw => he.near k q w hlk hw, he.on k q j hlk hj⟩)
  · obtain ⟨i, hi, h1, h2⟩ := hz
    obtain ⟨l, hl⟩ := hcell hi
    obtain ⟨k, q, hk, hx⟩ := (h.cell i l hl).corner_all (z := z) (fun y hy => excess_le.2 (h1 y hy)) fun u hu => h2 u fun y hy hc => excess_zero.1 (hu y hy (commonFace_iff.1 hc).2)
    obtain ⟨k', v, p, -, e1, -, -, e3, e4, -⟩ := h.vertex eW hW (cornerAt_eq.2 ⟨l, hl, hk⟩)
    exact ⟨v, p.x, by rw [hMW.1]; exact e3, by rw [hMW.2]; exact e4, fun d hd => by rw [e1 d hd, hx d hd]⟩
  · rw [hMW.1] at hv hv'
    rw [hMW.2] at hu hu'
    obtain ⟨s, k, q, t1, t2, t3, t4⟩ := hW.numbered v hv
    obtain ⟨s', k', q', r1, r2, r3, r4⟩ := hW.numbered v' hv'
    rw [hu] at t4
    rw [hu'] at r4
    obtain rfl := Option.some.inj t4
    obtain rfl := Option.some.inj r4
    have := (h.vertex_eq eW hW t1 r1).2 hx
    unfold Welded.vertexOf at this
    rw [t2, r2] at this
    simp only at this
    rw [t3, r3] at this
    exact Option.some.inj this
  · obtain ⟨g, hg, -⟩ := hM1 k hk
    obtain ⟨i, fs, hi, e1, e2⟩ := hfrom k g hg
    unfold facesAt at e1
    cases hl : C i with
    | none =>
      rw [hl] at e1
      obtain rfl := Option.some.inj (Option.some.inj e1)
      simp at e2
    | some l =>
      rw [hl] at e1
      obtain ⟨rfl, g2, g3, -, g4⟩ := seedFaces_inv _ e1 g e2
      obtain ⟨w1, w2⟩ := good hl g2 g4
      exact ⟨g, hg, w2 g3, flat_wide.2 (w1.1 g3)⟩
  · obtain ⟨l, hl⟩ := hcell hi
    by_cases hside : ∀ s, xs[y]? = some s → s.region = 0 ∨ i ≤ y
    · obtain ⟨k, g, h1, h2, h3, h4⟩ := list hl hy hyi (flat_wide.1 hflat) hside
      exact ⟨k, g, h1, h2, Or.inl ⟨h3, h4⟩⟩
    · push Not at hside
      obtain ⟨s, hs', hr, hlt⟩ := hside
      obtain ⟨ly, hly⟩ := h.ok.tot y s hs' hr
      obtain ⟨a, b, c, n1, fa, fb, fc⟩ := hflat
      obtain ⟨k, g, h1, h2, h3, h4⟩ := list hly (h.ok.lt_of hl) (Ne.symm hyi) (flat_wide.1 ⟨a, b, c, n1, commonFace_symm fa, commonFace_symm fb, commonFace_symm fc⟩) fun _ _ => Or.inr hlt.le
      exact ⟨k, g, h1, h2, Or.inr ⟨h3, h4⟩⟩

end VoroCrust
