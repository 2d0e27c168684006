import Verif.Props.MeshExact

/-!
# The explicit mesh is the Voronoi mesh (C102)
-/

namespace VoroCrust

open Classical

/-! ## Welding exact cells -/

/-- One step of the tags. -/
def TagStep (C : Cells) (a b : Nat × Nat) : Prop := tagCorners C a.1 a.2 = some b

theorem chase_chain {p : CornerPtr} {R : Nat × Nat → Nat × Nat → Prop} (hp : ∀ a b : Nat × Nat, p a.1 a.2 = some b → Relation.ReflTransGen R a b) (f : Nat) : ∀ {a t : Nat × Nat}, chase p f a = some (some t) → Relation.ReflTransGen R a t := by
  induction f with
  | zero => intro a t h; simp [chase] at h
  | succ f ih =>
    intro a t h
    unfold chase at h
    cases e : p a.1 a.2 with
    | none => rw [e] at h; simp at h
    | some b =>
      rw [e] at h
      simp only at h
      by_cases hab : b = a
      · rw [if_pos hab] at h
        obtain rfl := Option.some.inj (Option.some.inj h)
        exact Relation.ReflTransGen.refl
      · rw [if_neg hab] at h
        exact (hp a b e).trans (ih h)

theorem resolve_chain {R : Nat × Nat → Nat × Nat → Prop} {f : Nat} (s : List (Nat × Nat)) : ∀ {p r : CornerPtr}, (∀ a b : Nat × Nat, p a.1 a.2 = some b → Relation.ReflTransGen R a b) → resolveLoop f s p = some (some r) →
    ∀ a b : Nat × Nat, r a.1 a.2 = some b → Relation.ReflTransGen R a b := by
  induction s with
  | nil =>
    intro p r hp h
    obtain rfl := Option.some.inj (Option.some.inj h)
    exact hp
  | cons u s ih =>
    intro p r hp h
    obtain ⟨i, c⟩ := u
    unfold resolveLoop at h
    cases e : p i c with
    | none => rw [e] at h; simp at h
    | some a =>
      rw [e] at h
      simp only at h
      cases e2 : chase p f a with
      | none => rw [e2] at h; simp [andThen] at h
      | some o =>
        cases o with
        | none => rw [e2] at h; simp [andThen] at h
        | some t =>
          rw [e2] at h
          simp only [andThen] at h
          refine ih (fun a' b hab => ?_) h
          by_cases g : a' = (i, c)
          · subst g
            rw [setPtr_same] at hab
            obtain rfl := Option.some.inj hab
            exact (hp (i, c) a e).trans (chase_chain hp f e2)
          · rw [setPtr_other (by simpa using g)] at hab
            exact hp a' b hab

/-- The pointers follow the tags. -/
theorem weld_chain {C : Cells} {n f : Nat} {W : Welded} (h : weldCorners C n f = some (some W)) : ∀ a b : Nat × Nat, W.ptr a.1 a.2 = some b → Relation.ReflTransGen (TagStep C) a b := by
  unfold weldCorners at h
  cases e : resolveLoop f (cornerSlots C n) (tagCorners C) with
  | none => rw [e] at h; simp [andThen] at h
  | some o =>
    cases o with
    | none => rw [e] at h; simp [andThen] at h
    | some p =>
      rw [e] at h
      simp only [andThen] at h
      split at h
      · simp at h
      · obtain rfl := Option.some.inj (Option.some.inj h)
        exact resolve_chain _ (fun a b hab => Relation.ReflTransGen.single hab) e

/-- All cells are exact. -/
structure ExactCells (xs : List SeedRec) (C : Cells) (rank : Nat → Nat) : Prop where
  ok : CellsOK xs C rank
  cell : ∀ i l, C i = some l → ExactCell (seedPos xs) xs.length i l
  owner : ∀ i l, C i = some l → ExactOwner xs rank i l

variable {xs : List SeedRec} {C : Cells} {rank : Nat → Nat}

theorem excess_swap {pts : Nat → Nat → ℝ} {i j y : Nat} {z : Nat → ℝ} (h : excess pts i j z = 0) : excess pts j y z = excess pts i y z := by
  unfold excess at h ⊢; linarith

theorem nearestCorner_le {v : Nat → ℝ} (l : List MeshCorner) : ∀ (j : Nat) (b : Option (Nat × ℝ)) (k : Nat) (h : ℝ), nearestCorner v l j b = some (k, h) → (∀ a, b = some a → h ≤ a.2) ∧ ∀ q ∈ l, h ≤ Real.sqrt (distSq3 q.x v) := by
  induction l with
  | nil => intro j b k h e; exact ⟨fun a ha => by rw [show nearestCorner v [] j b = b from rfl, ha] at e; rw [Option.some.inj e], by simp⟩
  | cons q l ih =>
    intro j b k h e
    unfold nearestCorner at e
    split_ifs at e with g
    · obtain ⟨h1, h2⟩ := ih _ _ k h e
      have h3 := h1 _ rfl
      refine ⟨fun a ha => h3.trans (g a ha).le, fun q' hq' => ?_⟩
      rcases List.mem_cons.1 hq' with rfl | hq'
      · exact h3
      · exact h2 q' hq'
    · obtain ⟨h1, h2⟩ := ih _ _ k h e
      refine ⟨h1, fun q' hq' => ?_⟩
      rcases List.mem_cons.1 hq' with rfl | hq'
      · push Not at g
        obtain ⟨a, ha, hle⟩ := g
        exact (h1 a ha).trans hle
      · exact h2 q' hq'

/-- The owner of a corner has a corner at its place. -/
theorem ExactCells.owned (h : ExactCells xs C rank) {i c : Nat} {q : MeshCorner} (hq : cornerAt C i c = some q) :
    ∃ k q', cornerAt C q.owner k = some q' ∧ (∀ d, d < 3 → q'.x d = q.x d) ∧ q'.owner = q.owner ∧ tagCorners C i c = some (q.owner, k) := by
  obtain ⟨l, hl, hlc⟩ := cornerAt_eq.1 hq
  have he := h.cell i l hl
  obtain ⟨⟨so, o1, o2⟩, o3, o4⟩ := h.owner i l hl c q hlc
  obtain ⟨lo, hlo⟩ := h.ok.tot _ so o1 o2
  have heo := h.cell _ lo hlo
  have hilt := h.ok.lt_of hl
  have holt := h.ok.lt_of hlo
  -- the owner is one of the four seeds, the other three are walls of its cell
  obtain ⟨a, b, d, ab, ad, bd, ha, hb, hd⟩ : ∃ a b d, a ≠ b ∧ a ≠ d ∧ b ≠ d ∧ ((a < xs.length ∧ a ≠ q.owner) ∧ excess (seedPos xs) i a q.x = 0) ∧ ((b < xs.length ∧ b ≠ q.owner) ∧ excess (seedPos xs) i b q.x = 0) ∧
      ((d < xs.length ∧ d ≠ q.owner) ∧ excess (seedPos xs) i d q.x = 0) := by
    have on := fun j hj => he.on c q j hlc hj
    have rg := fun j hj => he.range c q j hlc hj
    have df : ∀ j j', j < 3 → j' < 3 → j ≠ j' → q.seeds j ≠ q.seeds j' := fun j j' hj hj' hne e => hne (he.diff c q j j' hlc hj hj' e)
    have hii : excess (seedPos xs) i i q.x = 0 := by unfold excess; ring
    by_cases ho : q.owner = i
    · rw [ho]
      exact ⟨q.seeds 0, q.seeds 1, q.seeds 2, df 0 1 (by omega) (by omega) (by omega), df 0 2 (by omega) (by omega) (by omega), df 1 2 (by omega) (by omega) (by omega), ⟨rg 0 (by omega), on 0 (by omega)⟩, ⟨rg 1 (by omega), on 1 (by omega)⟩,
        ⟨rg 2 (by omega), on 2 (by omega)⟩⟩
    · obtain ⟨j, hj, ej⟩ := he.only c q q.owner hlc holt ho o3
      refine ⟨i, q.seeds ((j + 1) % 3), q.seeds ((j + 2) % 3), (rg _ (by omega)).2.symm, (rg _ (by omega)).2.symm, df _ _ (by omega) (by omega) (by omega), ⟨⟨hilt, Ne.symm ho⟩, hii⟩, ⟨⟨(rg _ (by omega)).1, ?_⟩, on _ (by omega)⟩, ⟨⟨(rg _ (by omega)).1, ?_⟩, on _ (by omega)⟩⟩
      · rw [← ej]; exact df _ _ (by omega) (by omega) (by omega)
      · rw [← ej]; exact df _ _ (by omega) (by omega) (by omega)
  obtain ⟨k, q', hk, hx⟩ := heo.corner ab ad bd ha.1 hb.1 hd.1 (z := q.x) (fun y hy => by rw [excess_swap o3]; exact he.near c q y hlc hy) (by rw [excess_swap o3]; exact ha.2) (by rw [excess_swap o3]; exact hb.2) (by rw [excess_swap o3]; exact hd.2)
  have hown : q'.owner = q.owner := by
    obtain ⟨⟨s', p1, p2⟩, p3, p4⟩ := h.owner _ lo hlo k q' hk
    have r1 := p4 q.owner so o1 o2 (by unfold excess; ring)
    have r2 := o4 q'.owner s' p1 p2 (by rw [← excess_swap o3, ← excess_congr hx]; exact p3)
    exact h.ok.inj _ _ (List.getElem?_eq_some_iff.1 p1).1 holt (le_antisymm r1 r2)
  refine ⟨k, q', cornerAt_eq.2 ⟨lo, hlo, hk⟩, hx, hown, ?_⟩
  have e : tagCorners C i c = tagCorner C i c q := by
    unfold tagCorners
    rw [hl]
    simp only
    rw [hlc]
  rw [e]
  unfold tagCorner
  rw [hlo]
  simp only
  have hk0 : distSq3 q'.x q.x = 0 := by
    unfold distSq3
    rw [hx 0 (by omega), hx 1 (by omega), hx 2 (by omega)]
    ring
  cases hn : nearestCorner q.x lo 0 none with
  | none =>
    exfalso
    have : ∀ (ls : List MeshCorner) (m : Nat) (b : Option (Nat × ℝ)), nearestCorner q.x ls m b = none → ls = [] := by
      intro ls
      induction ls with
      | nil => intros; rfl
      | cons y ys ih =>
        intro m b hb
        exfalso
        have key : ∀ (ls : List MeshCorner) (m : Nat) (a : Nat × ℝ), nearestCorner q.x ls m (some a) ≠ none := by
          intro ls
          induction ls with
          | nil => intro m a; simp [nearestCorner]
          | cons y ys ih =>
            intro m a
            unfold nearestCorner
            split_ifs
            · exact ih _ _
            · exact ih _ _
        unfold nearestCorner at hb
        split_ifs at hb with g
        · exact key _ _ _ hb
        · cases b with
          | none => exact g (by simp)
          | some a => exact key _ _ _ hb
    rw [this lo 0 none hn] at hk
    simp at hk
  | some ja =>
    obtain ⟨j, dd⟩ := ja
    obtain ⟨g1, -, -⟩ := nearestCorner_spec lo 0 none (by simp) j dd hn
    obtain ⟨-, g2⟩ := nearestCorner_le lo 0 none j dd hn
    obtain ⟨k', q2, hq2, hkk, hdd⟩ := g1.resolve_left (by simp)
    rw [Nat.zero_add] at hkk
    subst hkk
    have hle : dd ≤ 0 := by
      have := g2 q' (List.mem_of_getElem? hk)
      rw [hk0, Real.sqrt_zero] at this
      exact this
    simp only
    rw [if_neg (by linarith : ¬ dd > 1e-6)]
    have hd0 : distSq3 q2.x q.x = 0 := by
      have hnn : 0 ≤ distSq3 q2.x q.x := by rw [distSq3_sq]; positivity
      have : Real.sqrt (distSq3 q2.x q.x) = 0 := le_antisymm (by rw [← hdd]; exact hle) (Real.sqrt_nonneg _)
      exact (Real.sqrt_eq_zero hnn).1 this
    have hx2 : ∀ d, d < 3 → q2.x d = q.x d := fun d hd => by
      unfold distSq3 at hd0
      have z0 := sq_nonneg (q2.x 0 - q.x 0)
      have z1 := sq_nonneg (q2.x 1 - q.x 1)
      have z2 := sq_nonneg (q2.x 2 - q.x 2)
      have e0 : (q2.x 0 - q.x 0) ^ 2 = 0 := by nlinarith
      have e1 : (q2.x 1 - q.x 1) ^ 2 = 0 := by nlinarith
      have e2 : (q2.x 2 - q.x 2) ^ 2 = 0 := by nlinarith
      rw [sq_eq_zero_iff, sub_eq_zero] at e0 e1 e2
      interval_cases d
      · exact e0
      · exact e1
      · exact e2
    rw [heo.place hq2 hk fun d hd => by rw [hx2 d hd, hx d hd]]

/-- The vertex of a corner: it is at the place of the corner, and corners at the same place have the same one. -/
theorem ExactCells.vertex (h : ExactCells xs C rank) {f : Nat} {W : Welded} (hW : weldCorners C xs.length f = some (some W)) (hok : W.OK C) {i c : Nat} {q : MeshCorner} (hq : cornerAt C i c = some q) :
    ∃ k v p, cornerAt C q.owner k = some p ∧ (∀ d, d < 3 → p.x d = q.x d) ∧ W.ptr i c = some (q.owner, k) ∧ W.vertexOf i c = some v ∧ v < W.nv ∧ W.vertices v = some p.x := by
  obtain ⟨k, q', hk, hx, hown, htag⟩ := h.owned hq
  obtain ⟨k2, q2, hk2, hx2, -, htag2⟩ := h.owned hk
  rw [hown] at hk2 htag2
  have hkk : k2 = k := by
    obtain ⟨lo, hlo, h1⟩ := cornerAt_eq.1 hk
    obtain ⟨lo', hlo', h2⟩ := cornerAt_eq.1 hk2
    rw [hlo] at hlo'
    obtain rfl := Option.some.inj hlo'
    exact (h.cell _ lo hlo).place h2 h1 hx2
  rw [hkk] at htag2
  obtain ⟨s, kk, v, r1, r2, r3, r4, r5, -⟩ := hok.resolved i c ⟨q, hq⟩
  have hreach : ∀ b, Relation.ReflTransGen (TagStep C) (i, c) b → b = (i, c) ∨ b = (q.owner, k) := by
    intro b hb
    induction hb with
    | refl => exact Or.inl rfl
    | tail _ hs ih =>
      unfold TagStep at hs
      rcases ih with rfl | rfl
      · rw [htag] at hs; exact Or.inr (Option.some.inj hs).symm
      · rw [htag2] at hs; exact Or.inr (Option.some.inj hs).symm
  have hptr : W.ptr i c = some (q.owner, k) := by
    rcases hreach _ (weld_chain hW (i, c) _ r1) with g | g
    · -- it stays, so it is its own target
      rw [g] at r1
      rcases (hok.stays i c q hq).1 r1 with g1 | ⟨g1, -⟩
      · have := g1 k q' hk
        have h0 : euclid 3 q'.x q.x = 0 := by
          rw [← sqrt_distSq3]
          unfold distSq3
          rw [hx 0 (by omega), hx 1 (by omega), hx 2 (by omega)]
          simp
        rw [h0] at this
        norm_num at this
      · rw [r1, g1]
        obtain ⟨l, hl, h1⟩ := cornerAt_eq.1 hq
        rw [g1] at hk
        obtain ⟨l', hl', h2⟩ := cornerAt_eq.1 hk
        rw [hl] at hl'
        obtain rfl := Option.some.inj hl'
        rw [(h.cell _ l hl).place h2 h1 hx]
    · rw [r1, g]
  rw [r1, Option.some.injEq, Prod.mk.injEq] at hptr
  obtain ⟨rfl, rfl⟩ := hptr
  obtain ⟨s2, k3, q3, t1, t2, t3, t4⟩ := hok.numbered v r5
  obtain ⟨rfl, rfl⟩ := hok.once _ _ _ _ _ r4 t3
  rw [hk] at t1
  obtain rfl := Option.some.inj t1
  exact ⟨kk, v, q', hk, hx, r1, by unfold Welded.vertexOf; rw [r1]; exact r4, r5, t4⟩

theorem ExactCells.vertex_eq (h : ExactCells xs C rank) {f : Nat} {W : Welded} (hW : weldCorners C xs.length f = some (some W)) (hok : W.OK C) {i c i' c' : Nat} {q q' : MeshCorner} (hq : cornerAt C i c = some q)
    (hq' : cornerAt C i' c' = some q') : W.vertexOf i c = W.vertexOf i' c' ↔ ∀ d, d < 3 → q.x d = q'.x d := by
  obtain ⟨k, v, p, a1, a2, a3, a4, a5, a6⟩ := h.vertex hW hok hq
  obtain ⟨k', v', p', b1, b2, b3, b4, b5, b6⟩ := h.vertex hW hok hq'
  constructor
  · intro e d hd
    rw [a4, b4] at e
    obtain rfl := Option.some.inj e
    rw [a6] at b6
    have := Option.some.inj b6
    rw [← a2 d hd, ← b2 d hd, this]
  · intro e
    obtain ⟨l, hl, hlc⟩ := cornerAt_eq.1 hq
    obtain ⟨l', hl', hlc'⟩ := cornerAt_eq.1 hq'
    obtain ⟨⟨s, o1, o2⟩, o3, o4⟩ := h.owner i l hl c q hlc
    obtain ⟨⟨s', p1, p2⟩, p3, p4⟩ := h.owner i' l' hl' c' q' hlc'
    have hii : excess (seedPos xs) i i' q.x = 0 := by
      have e1 := (h.cell i l hl).near c q i' hlc (h.ok.lt_of hl')
      have e2 := (h.cell i' l' hl').near c' q' i hlc' (h.ok.lt_of hl)
      rw [← excess_congr e] at e2
      unfold excess at e1 e2 ⊢
      linarith
    have hown : q.owner = q'.owner := by
      refine h.ok.inj _ _ (List.getElem?_eq_some_iff.1 o1).1 (List.getElem?_eq_some_iff.1 p1).1 (le_antisymm (o4 _ s' p1 p2 ?_) (p4 _ s o1 o2 ?_))
      · rw [← excess_swap hii, excess_congr e]; exact p3
      · rw [← excess_congr e, excess_swap hii]; exact o3
    rw [← hown] at b1 b3
    obtain ⟨lo, hlo, h1⟩ := cornerAt_eq.1 a1
    obtain ⟨lo', hlo', h2⟩ := cornerAt_eq.1 b1
    rw [hlo] at hlo'
    obtain rfl := Option.some.inj hlo'
    have : k = k' := (h.cell _ lo hlo).place h1 h2 fun d hd => by rw [a2 d hd, b2 d hd, e d hd]
    unfold Welded.vertexOf
    rw [a3, b3, this]

/-! ## What a Voronoi mesh is -/

/-- A seed that has a cell. -/
def InnerSeed (xs : List SeedRec) (i : Nat) : Prop := ∃ s, xs[i]? = some s ∧ s.region ≠ 0

/-- The points not nearer to any other seed. -/
def InVoronoi (xs : List SeedRec) (i : Nat) (z : Nat → ℝ) : Prop := ∀ y, y < xs.length → euclid 3 z (seedPos xs i) ≤ euclid 3 z (seedPos xs y)

/-- The points of the cell that are as near to another seed. -/
def CommonFace (xs : List SeedRec) (i y : Nat) (z : Nat → ℝ) : Prop := InVoronoi xs i z ∧ euclid 3 z (seedPos xs i) = euclid 3 z (seedPos xs y)

/-- A vertex of the Voronoi cell of an inner seed: four seeds are nearest. -/
def IsVoronoiVertex (xs : List SeedRec) (z : Nat → ℝ) : Prop :=
  ∃ i a b c, InnerSeed xs i ∧ (a < xs.length ∧ a ≠ i) ∧ (b < xs.length ∧ b ≠ i) ∧ (c < xs.length ∧ c ≠ i) ∧ a ≠ b ∧ a ≠ c ∧ b ≠ c ∧ CommonFace xs i a z ∧ CommonFace xs i b z ∧ CommonFace xs i c z

/-- One face of a mesh as the common face of two Voronoi cells. -/
structure IsVoronoiFace (xs : List SeedRec) (M : VMesh) (g : MeshFace) : Prop where
  seed : InnerSeed xs g.seed
  nbr : g.nbr < xs.length
  ne : g.nbr ≠ g.seed
  three : 3 ≤ g.verts.length
  nodup : g.verts.Nodup
  verts : ∀ v ∈ g.verts, v < M.nv
  /-- the vertices span the common points of the two cells -/
  hull : ∀ z, (∃ p ∈ convexHull ℝ {u | ∃ v ∈ g.verts, M.vertices v = some u}, ∀ k, k < 3 → p k = z k) ↔ CommonFace xs g.seed g.nbr z
  /-- every vertex of the Voronoi mesh on the face is listed -/
  all : ∀ v u, v < M.nv → M.vertices v = some u → CommonFace xs g.seed g.nbr u → v ∈ g.verts
  /-- consecutive vertices, and the last and the first, are the ends of an edge: they share a third seed -/
  edge : ∀ t v v' u u', g.verts[t]? = some v → g.verts[(t + 1) % g.verts.length]? = some v' → M.vertices v = some u → M.vertices v' = some u' →
    ∃ e, e < xs.length ∧ e ≠ g.seed ∧ e ≠ g.nbr ∧ CommonFace xs g.seed e u ∧ CommonFace xs g.seed e u'

/-- The mesh is the Voronoi mesh of the inner seeds. -/
structure IsVoronoiMesh (xs : List SeedRec) (M : VMesh) : Prop where
  vertex : ∀ v, v < M.nv → ∃ u, M.vertices v = some u ∧ IsVoronoiVertex xs u
  vertices : ∀ z, IsVoronoiVertex xs z → ∃ v u, v < M.nv ∧ M.vertices v = some u ∧ ∀ k, k < 3 → u k = z k
  distinct : ∀ v v' u u', v < M.nv → v' < M.nv → M.vertices v = some u → M.vertices v' = some u' → (∀ k, k < 3 → u k = u' k) → v = v'
  face : ∀ k, k < M.nf → ∃ g, M.faces k = some g ∧ IsVoronoiFace xs M g
  faces : ∀ i y z, InnerSeed xs i → y < xs.length → y ≠ i → CommonFace xs i y z → ∃ k g, k < M.nf ∧ M.faces k = some g ∧ ((g.seed = i ∧ g.nbr = y) ∨ (g.seed = y ∧ g.nbr = i))
  once : ∀ k k' g g', k < M.nf → k' < M.nf → M.faces k = some g → M.faces k' = some g' → (g.seed = g'.seed ∧ g.nbr = g'.nbr) ∨ (g.seed = g'.nbr ∧ g.nbr = g'.seed) → k = k'

theorem commonFace_iff {i y : Nat} {z : Nat → ℝ} : CommonFace xs i y z ↔ (∀ u, u < xs.length → excess (seedPos xs) i u z ≤ 0) ∧ excess (seedPos xs) i y z = 0 := by
  unfold CommonFace InVoronoi
  rw [excess_zero]
  simp only [excess_le]

theorem commonFace_symm {i y : Nat} {z : Nat → ℝ} (h : CommonFace xs i y z) : CommonFace xs y i z := ⟨fun u hu => h.2 ▸ h.1 u hu, h.2.symm⟩

/-- From exact cells the Voronoi mesh is built. -/
theorem exact_mesh (h : ExactCells xs C rank) : ∃ F, ∀ f, F ≤ f → ∃ M, meshOfCells xs C f = some (some M) ∧ IsVoronoiMesh xs M := by
  obtain ⟨F0, hF0⟩ := mesh_ok h.ok
  obtain ⟨B, hB⟩ := slots_bounded C xs.length
  refine ⟨max F0 B, fun f hf => ?_⟩
  obtain ⟨W, eW, hW, M, eM, hM1, hM2⟩ := hF0 f (le_trans (le_max_left _ _) hf)
  have hlen : ∀ i l, C i = some l → l.length ≤ f := by
    intro i l hl
    refine le_trans ?_ (le_trans (le_max_right _ _) hf)
    cases hn : l.length with
    | zero => omega
    | succ m => exact hB i m (h.ok.lt_of hl) (isSlot_iff.2 ⟨l, hl, by omega⟩)
  have hMW : M.nv = W.nv ∧ M.vertices = W.vertices := by
    unfold meshOfCells at eM
    rw [eW] at eM
    simp only [andThen] at eM
    split at eM
    · simp at eM
    · simp at eM
    · split at eM
      · simp at eM
      · simp at eM
      · obtain rfl := Option.some.inj (Option.some.inj eM)
        exact ⟨rfl, rfl⟩
  have hcell : ∀ {i : Nat}, InnerSeed xs i → ∃ l, C i = some l := fun {i} hi => by
    obtain ⟨s, h1, h2⟩ := hi
    exact h.ok.tot i s h1 h2
  -- a common face is listed on one side
  have list : ∀ {i y : Nat} {l : List MeshCorner} {c : Nat} {q : MeshCorner} {j : Nat}, C i = some l → l[c]? = some q → j < 3 → q.seeds j = y → (∀ s, xs[y]? = some s → s.region = 0 ∨ i ≤ y) →
      ∃ k g, k < M.nf ∧ M.faces k = some g ∧ g.seed = i ∧ g.nbr = y ∧ IsVoronoiFace xs M g := by
    intro i y l c q j hl hc hj hy hside
    have he := h.cell i l hl
    obtain ⟨hylt, hyi⟩ := he.range c q j hc hj
    rw [hy] at hylt hyi
    obtain ⟨m, cyc, m3, ml, hcyc, cinj, call, cedge⟩ := he.cycle hl ⟨c, q, j, hc, hj, hy⟩
    have hat : ∀ t, t < m → ∃ q', l[cyc t]? = some q' ∧ cornerAt C i (cyc t) = some q' ∧ ∃ j', j' < 3 ∧ q'.seeds j' = y := fun t ht => by
      obtain ⟨q', j', e1, e2, e3, -⟩ := hcyc.step t ht
      obtain ⟨l', hl', e4⟩ := cornerAt_eq.1 e1
      rw [hl] at hl'
      obtain rfl := Option.some.inj hl'
      exact ⟨q', e4, e1, j', e2, e3⟩
    have hv : ∀ t, ∃ v, t < m → W.vertexOf i (cyc t) = some v := fun t => by
      by_cases ht : t < m
      · obtain ⟨q', -, e1, -⟩ := hat t ht
        obtain ⟨k, v, p, -, -, -, e2, -⟩ := h.vertex eW hW e1
        exact ⟨v, fun _ => e2⟩
      · exact ⟨0, fun g => absurd g ht⟩
    choose v hv using hv
    have hinj : ∀ t t', t < m → t' < m → v t = v t' → t = t' := by
      intro t t' ht ht' e
      obtain ⟨q1, a1, a2, -⟩ := hat t ht
      obtain ⟨q2, b1, b2, -⟩ := hat t' ht'
      have := (h.vertex_eq eW hW a2 b2).1 (by rw [hv t ht, hv t' ht', e])
      exact cinj t t' ht ht' (he.place a1 b1 this)
    obtain ⟨s, hs⟩ : ∃ s, xs[y]? = some s := ⟨_, List.getElem?_eq_getElem hylt⟩
    obtain ⟨k, hk, hg⟩ := C54_face_listed xs C f W eW M eM i y m (h.ok.lt_of hl) m3 (ml.trans (hlen i l hl)) s hs (hside s hs) cyc v hcyc hv hinj
    have hplace : ∀ t, t < m → ∀ q', l[cyc t]? = some q' → v t < M.nv ∧ ∃ u, M.vertices (v t) = some u ∧ ∀ d, d < 3 → u d = q'.x d := by
      intro t ht q' hq'
      obtain ⟨k, v', p, -, e1, -, e2, e3, e4⟩ := h.vertex eW hW (cornerAt_eq.2 ⟨l, hl, hq'⟩)
      rw [hv t ht] at e2
      obtain rfl := Option.some.inj e2
      rw [hMW.1, hMW.2]
      exact ⟨e3, p.x, e4, e1⟩
    have hon : ∀ t, t < m → ∀ u, M.vertices (v t) = some u → ∀ e, (∃ q' j', l[cyc t]? = some q' ∧ j' < 3 ∧ q'.seeds j' = e) → CommonFace xs i e u := by
      rintro t ht u hu e ⟨q', j', e1, e2, rfl⟩
      obtain ⟨-, u', hu', hx⟩ := hplace t ht q' e1
      rw [hu] at hu'
      obtain rfl := Option.some.inj hu'
      rw [commonFace_iff]
      exact ⟨fun w hw => by rw [excess_congr hx]; exact he.near _ q' w e1 hw, by rw [excess_congr hx]; exact he.on _ q' j' e1 e2⟩
    refine ⟨k, _, hk, hg, rfl, rfl, ⟨h.ok.dom i l hl, hylt, hyi, by simpa using m3, ?_, ?_, ?_, ?_, ?_⟩⟩
    · refine (List.nodup_map_iff_inj_on List.nodup_range).2 fun t ht t' ht' e => hinj t t' (List.mem_range.1 ht) (List.mem_range.1 ht') e
    · intro w hw
      obtain ⟨t, ht, rfl⟩ := List.mem_map.1 hw
      rw [List.mem_range] at ht
      obtain ⟨q', e1, -⟩ := hat t ht
      exact (hplace t ht q' e1).1
    · intro z
      show _ ↔ CommonFace xs i y z
      rw [commonFace_iff, ← he.face_hull hylt hyi]
      -- both hulls have the same image in three coordinates
      let π : (Nat → ℝ) →ₗ[ℝ] (Fin 3 → ℝ) := LinearMap.pi fun k => LinearMap.proj k.val
      have hπ : ∀ (S : Set (Nat → ℝ)), (∃ p ∈ convexHull ℝ S, ∀ k, k < 3 → p k = z k) ↔ π z ∈ convexHull ℝ (π '' S) := fun S => by
        rw [← π.image_convexHull]
        constructor
        · rintro ⟨p, hp, e⟩
          exact ⟨p, hp, funext fun k => e k.val k.isLt⟩
        · rintro ⟨p, hp, e⟩
          exact ⟨p, hp, fun k hk => congrFun e ⟨k, hk⟩⟩
      rw [hπ, hπ]
      suffices hs : π '' {u | ∃ w ∈ (List.range m).map v, M.vertices w = some u} = π '' {u | ∃ (c : Nat) (q : MeshCorner), l[c]? = some q ∧ q.x = u ∧ ∃ j, j < 3 ∧ q.seeds j = y} by rw [hs]
      ext w
      constructor
      · rintro ⟨u, ⟨vv, hvv, hu⟩, rfl⟩
        obtain ⟨t, ht, rfl⟩ := List.mem_map.1 hvv
        rw [List.mem_range] at ht
        obtain ⟨q', e1, -, e2⟩ := hat t ht
        obtain ⟨-, u', hu', hx⟩ := hplace t ht q' e1
        rw [hu] at hu'
        obtain rfl := Option.some.inj hu'
        exact ⟨q'.x, ⟨cyc t, q', e1, rfl, e2⟩, funext fun k => (hx k.val k.isLt).symm⟩
      · rintro ⟨u, ⟨c', q', e1, rfl, j', e2, e3⟩, rfl⟩
        obtain ⟨t, ht, rfl⟩ := call c' q' j' e1 e2 e3
        obtain ⟨-, u', hu', hx⟩ := hplace t ht q' e1
        exact ⟨u', ⟨v t, List.mem_map.2 ⟨t, List.mem_range.2 ht, rfl⟩, hu'⟩, funext fun k => hx k.val k.isLt⟩
    · intro w u hw hu hface
      simp only at hface
      rw [commonFace_iff] at hface
      rw [hMW.1] at hw
      rw [hMW.2] at hu
      obtain ⟨s2, k2, q2, t1, t2, t3, t4⟩ := hW.numbered w hw
      rw [hu] at t4
      obtain rfl := Option.some.inj t4
      obtain ⟨l2, hl2, hlk⟩ := cornerAt_eq.1 t1
      have he2 := h.cell s2 l2 hl2
      -- a corner of the cell of `i` at that place
      have hi2 : excess (seedPos xs) i s2 q2.x = 0 := by
        have e1 := hface.1 s2 (h.ok.lt_of hl2)
        have e2 := he2.near k2 q2 i hlk (h.ok.lt_of hl)
        unfold excess at e1 e2 ⊢
        linarith
      have hcor : ∃ (k : Nat) (q' : MeshCorner), l[k]? = some q' ∧ ∀ d, d < 3 → q'.x d = q2.x d := by
        by_cases hsi : s2 = i
        · subst hsi
          rw [hl] at hl2
          obtain rfl := Option.some.inj hl2
          exact ⟨k2, q2, hlk, fun _ _ => rfl⟩
        · have hii : excess (seedPos xs) s2 i q2.x = 0 := by unfold excess at hi2 ⊢; linarith
          obtain ⟨j2, hj2, ej2⟩ := he2.only k2 q2 i hlk (h.ok.lt_of hl) (Ne.symm hsi) hii
          have on := fun j hj => he2.on k2 q2 j hlk hj
          have rg := fun j hj => he2.range k2 q2 j hlk hj
          have df : ∀ j j', j < 3 → j' < 3 → j ≠ j' → q2.seeds j ≠ q2.seeds j' := fun j j' hj hj' hne e => hne (he2.diff k2 q2 j j' hlk hj hj' e)
          exact he.corner (a := s2) (b := q2.seeds ((j2 + 1) % 3)) (c := q2.seeds ((j2 + 2) % 3)) (rg _ (by omega)).2.symm (rg _ (by omega)).2.symm (df _ _ (by omega) (by omega) (by omega)) ⟨h.ok.lt_of hl2, hsi⟩
            ⟨(rg _ (by omega)).1, by rw [← ej2]; exact df _ _ (by omega) (by omega) (by omega)⟩ ⟨(rg _ (by omega)).1, by rw [← ej2]; exact df _ _ (by omega) (by omega) (by omega)⟩ hface.1 hi2
            (by rw [← excess_swap hi2]; exact on _ (by omega)) (by rw [← excess_swap hi2]; exact on _ (by omega))
      obtain ⟨k3, q3, e1, e2⟩ := hcor
      obtain ⟨j3, hj3, ej3⟩ := he.only k3 q3 y e1 hylt hyi (by rw [excess_congr e2]; exact hface.2)
      obtain ⟨t, ht, rfl⟩ := call k3 q3 j3 e1 hj3 ej3
      have hvv := (h.vertex_eq eW hW (cornerAt_eq.2 ⟨l, hl, e1⟩) t1).2 e2
      rw [hv t ht] at hvv
      unfold Welded.vertexOf at hvv
      rw [t2] at hvv
      simp only at hvv
      rw [t3] at hvv
      exact List.mem_map.2 ⟨t, List.mem_range.2 ht, Option.some.inj hvv⟩
    · intro t w w' u u' hw hw' hu hu'
      simp only [List.length_map, List.length_range] at hw' ⊢
      rw [List.getElem?_map, Option.map_eq_some_iff] at hw hw'
      obtain ⟨t1, g1, rfl⟩ := hw
      obtain ⟨t2, g2, rfl⟩ := hw'
      have rng : ∀ {a b : Nat}, (List.range m)[a]? = some b → b < m ∧ a = b := fun {a b} g => by
        obtain ⟨g3, g4⟩ := List.getElem?_eq_some_iff.1 g
        rw [List.getElem_range] at g4
        rw [List.length_range] at g3
        exact ⟨by omega, g4⟩
      obtain ⟨ht, rfl⟩ := rng g1
      obtain ⟨ht2, rfl⟩ := rng g2
      obtain ⟨q1, q2, e, a1, a2, a3, a4, a5, ⟨j1, b1, b2⟩, ⟨j2, d1, d2⟩⟩ := cedge t ht
      refine ⟨e, a3, a4, a5, hon t ht u hu e ⟨q1, j1, a1, b1, b2⟩, hon _ ht2 u' hu' e ⟨q2, j2, ?_, d1, d2⟩⟩
      by_cases hlast : t + 1 = m
      · rw [hlast, Nat.mod_self, ← hcyc.close, ← hlast]; exact a2
      · rw [Nat.mod_eq_of_lt (by omega)]; exact a2
  -- from either side
  have list' : ∀ {i y : Nat} {l : List MeshCorner} {c : Nat} {q : MeshCorner} {j : Nat}, C i = some l → l[c]? = some q → j < 3 → q.seeds j = y →
      ∃ k g, k < M.nf ∧ M.faces k = some g ∧ ((g.seed = i ∧ g.nbr = y) ∨ (g.seed = y ∧ g.nbr = i)) ∧ IsVoronoiFace xs M g := by
    intro i y l c q j hl hc hj hy
    have he := h.cell i l hl
    obtain ⟨hylt, hyi⟩ := he.range c q j hc hj
    rw [hy] at hylt hyi
    by_cases hside : ∀ s, xs[y]? = some s → s.region = 0 ∨ i ≤ y
    · obtain ⟨k, g, h1, h2, h3, h4, h5⟩ := list hl hc hj hy hside
      exact ⟨k, g, h1, h2, Or.inl ⟨h3, h4⟩, h5⟩
    · push Not at hside
      obtain ⟨s, hs, hr, hlt⟩ := hside
      obtain ⟨ly, hly⟩ := h.ok.tot y s hs hr
      have hfy : CommonFace xs y i q.x := commonFace_symm (commonFace_iff.2 ⟨fun u hu => he.near c q u hc hu, by rw [← hy]; exact he.on c q j hc hj⟩)
      obtain ⟨p, hp, -⟩ := ((h.cell y ly hly).face_hull (h.ok.lt_of hl) (Ne.symm hyi)).2 (commonFace_iff.1 hfy)
      obtain ⟨-, c', q', e1, -, j', e2, e3⟩ := convexHull_nonempty_iff.1 ⟨p, hp⟩
      obtain ⟨k, g, h1, h2, h3, h4, h5⟩ := list hly e1 e2 e3 fun _ _ => Or.inr hlt.le
      exact ⟨k, g, h1, h2, Or.inr ⟨h3, h4⟩, h5⟩
  refine ⟨M, eM, ⟨fun v hv => ?_, fun z hz => ?_, fun v v' u u' hv hv' hu hu' hx => ?_, fun k hk => ?_, fun i y z hi hy hyi hz => ?_, hM2⟩⟩
  · rw [hMW.1] at hv
    obtain ⟨s, k, q, t1, t2, t3, t4⟩ := hW.numbered v hv
    obtain ⟨l, hl, hlk⟩ := cornerAt_eq.1 t1
    have he := h.cell s l hl
    have rg := fun j hj => he.range k q j hlk hj
    have df : ∀ j j', j < 3 → j' < 3 → j ≠ j' → q.seeds j ≠ q.seeds j' := fun j j' hj hj' hne e => hne (he.diff k q j j' hlk hj hj' e)
    have of : ∀ j, j < 3 → CommonFace xs s (q.seeds j) q.x := fun j hj => commonFace_iff.2 ⟨fun u hu => he.near k q u hlk hu, he.on k q j hlk hj⟩
    exact ⟨q.x, by rw [hMW.2]; exact t4, s, q.seeds 0, q.seeds 1, q.seeds 2, h.ok.dom s l hl, rg 0 (by omega), rg 1 (by omega), rg 2 (by omega), df 0 1 (by omega) (by omega) (by omega), df 0 2 (by omega) (by omega) (by omega),
      df 1 2 (by omega) (by omega) (by omega), of 0 (by omega), of 1 (by omega), of 2 (by omega)⟩
  · obtain ⟨i, a, b, c, hi, ha, hb, hc, ab, ac, bc, fa, fb, fc⟩ := hz
    obtain ⟨l, hl⟩ := hcell hi
    rw [commonFace_iff] at fa fb fc
    obtain ⟨k, q, hk, hx⟩ := (h.cell i l hl).corner ab ac bc ha hb hc fa.1 fa.2 fb.2 fc.2
    obtain ⟨k', v, p, -, e1, -, -, e3, e4⟩ := h.vertex eW hW (cornerAt_eq.2 ⟨l, hl, hk⟩)
    exact ⟨v, p.x, by rw [hMW.1]; exact e3, by rw [hMW.2]; exact e4, fun d hd => by rw [e1 d hd, hx d hd]⟩
  · rw [hMW.1] at hv hv'
    rw [hMW.2] at hu hu'
    obtain ⟨s, k, q, t1, t2, t3, t4⟩ := hW.numbered v hv
    obtain ⟨s', k', q', r1, r2, r3, r4⟩ := hW.numbered v' hv'
    rw [hu] at t4
    rw [hu'] at r4
    obtain rfl := Option.some.inj t4
    obtain rfl := Option.some.inj r4
    have := (h.vertex_eq eW hW t1 r1).2 hx
    unfold Welded.vertexOf at this
    rw [t2, r2] at this
    simp only at this
    rw [t3, r3] at this
    exact Option.some.inj this
  · obtain ⟨g, hg, -, -, -, -, -, -, c, q, j, e1, e2, e3⟩ := hM1 k hk
    obtain ⟨l, hl, hlc⟩ := cornerAt_eq.1 e1
    obtain ⟨k', g', h1, h2, h3, h4⟩ := list' hl hlc e2 e3
    obtain rfl := hM2 k' k g' g h1 hk h2 hg h3
    rw [hg] at h2
    obtain rfl := Option.some.inj h2
    exact ⟨g, hg, h4⟩
  · obtain ⟨l, hl⟩ := hcell hi
    obtain ⟨p, hp, -⟩ := ((h.cell i l hl).face_hull hy hyi).2 (commonFace_iff.1 hz)
    obtain ⟨-, c, q, e1, -, j, e2, e3⟩ := convexHull_nonempty_iff.1 ⟨p, hp⟩
    obtain ⟨k, g, h1, h2, h3, -⟩ := list' hl e1 e2 e3
    exact ⟨k, g, h1, h2, h3⟩

end VoroCrust
