import Verif.Props.Pool
import Verif.Props.Cover
import Verif.Props.Lipschitz
import Verif.Props.Random
import Mathlib.Tactic.NormNum

/-! # An empty pool means a covered patch: C31; darts lie on their face: C69 -/

namespace VoroCrust

variable {W : Type}

/-! ## Specification -/

/-- `x` is a point of the triangle `A B C`. -/
def InTriangle (A B C x : Nat → ℝ) : Prop :=
  ∃ u v w : ℝ, 0 ≤ u ∧ 0 ≤ v ∧ 0 ≤ w ∧ u + v + w = 1 ∧ ∀ d, x d = u * A d + v * B d + w * C d

/-- `x` is a point of the segment `A B`. -/
def InSegment (A B x : Nat → ℝ) : Prop :=
  ∃ u v : ℝ, 0 ≤ u ∧ 0 ≤ v ∧ u + v = 1 ∧ ∀ d, x d = u * A d + v * B d

/-- `x` is inside some sphere of the tree whose radius is scaled by `k`, up to the tolerance of the coverage test. -/
def InBall (t : STree) (k : ℝ) (x : Nat → ℝ) : Prop :=
  ∃ s, s < t.store.num ∧ euclid 3 x (t.store.pts s) < (k + 1e-8) * t.store.pts s 3 + 1e-8

/-- Every sphere of `t` is a sphere of `t'` (spheres are only added between two calls). -/
def Grows (t t' : STree) : Prop :=
  ∀ s, s < t.store.num → ∃ s', s' < t'.store.num ∧ ∀ d, d < 4 → t'.store.pts s' d = t.store.pts s d

/-- A tree is empty or a proper sphere tree. -/
def STree.Wf (t : STree) : Prop := t.store.num = 0 ∨ SphereTree t.store t.links

/-- Every face (or edge) has corners inside the point array. -/
def PoolSurface.Valid {V : Type} (S : PoolSurface V) (n : Nat) : Prop := ∀ f, f < S.numFaces → ∀ i, i < n → S.corner f i < S.numPoints

theorem inBall_grows {t t' : STree} {k : ℝ} {x : Nat → ℝ} (h : Grows t t') (hx : InBall t k x) : InBall t' k x := by
  obtain ⟨s, hs, hd⟩ := hx
  obtain ⟨s', hs', e⟩ := h s hs
  refine ⟨s', hs', ?_⟩
  have : euclid 3 x (t'.store.pts s') = euclid 3 x (t.store.pts s) := by
    unfold euclid
    congr 1
    apply Finset.sum_congr rfl
    intro d hdd
    rw [e d (by have := Finset.mem_range.1 hdd; omega)]
  rw [this, e 3 (by omega)]
  exact hd

/-! ## One subdivision -/

/-- The four sub-triangles cover the triangle. -/
theorem triangle_split (A B C x : Nat → ℝ) (h : InTriangle A B C x) :
    InTriangle A (midpoint3 A B) (midpoint3 C A) x ∨ InTriangle (midpoint3 A B) B (midpoint3 B C) x ∨
      InTriangle (midpoint3 C A) (midpoint3 B C) C x ∨ InTriangle (midpoint3 A B) (midpoint3 B C) (midpoint3 C A) x := by
  obtain ⟨u, v, w, hu, hv, hw, hs, e⟩ := h
  by_cases h1 : 1 / 2 ≤ u
  · left
    refine ⟨2 * u - 1, 2 * v, 2 * w, by linarith, by linarith, by linarith, by linarith, fun d => ?_⟩
    rw [e d, midpoint3, midpoint3, show u = 1 - v - w by linarith]; ring
  by_cases h2 : 1 / 2 ≤ v
  · right; left
    refine ⟨2 * u, 2 * v - 1, 2 * w, by linarith, by linarith, by linarith, by linarith, fun d => ?_⟩
    rw [e d, midpoint3, midpoint3, show v = 1 - u - w by linarith]; ring
  by_cases h3 : 1 / 2 ≤ w
  · right; right; left
    refine ⟨2 * u, 2 * v, 2 * w - 1, by linarith, by linarith, by linarith, by linarith, fun d => ?_⟩
    rw [e d, midpoint3, midpoint3, show w = 1 - u - v by linarith]; ring
  · right; right; right
    refine ⟨1 - 2 * w, 1 - 2 * u, 1 - 2 * v, by linarith, by linarith, by linarith, by linarith, fun d => ?_⟩
    rw [e d, midpoint3, midpoint3, midpoint3, show u = 1 - v - w by linarith]; ring

theorem segment_split (A B x : Nat → ℝ) (h : InSegment A B x) :
    InSegment A (midpoint3 A B) x ∨ InSegment (midpoint3 A B) B x := by
  obtain ⟨u, v, hu, hv, hs, e⟩ := h
  by_cases h1 : 1 / 2 ≤ u
  · left
    refine ⟨2 * u - 1, 2 * v, by linarith, by linarith, by linarith, fun d => ?_⟩
    rw [e d, midpoint3, show u = 1 - v by linarith]; ring
  · right
    refine ⟨2 * u, 2 * v - 1, by linarith, by linarith, by linarith, fun d => ?_⟩
    rw [e d, midpoint3, show v = 1 - u by linarith]; ring

/-! ## The coverage test -/

/-- `x` is in a corner or edge ball, or in a surface ball shrunk by `√(1 - ratio²)`. -/
def Covered (surf edge corner : STree) (ratio : ℝ) (x : Nat → ℝ) : Prop :=
  InBall surf (Real.sqrt (1 - ratio ^ 2)) x ∨ InBall edge 1 x ∨ InBall corner 1 x

theorem coveredFace_spec (surf edge corner : STree) (hs : surf.Wf) (he : edge.Wf)
    (hc : corner.Wf) (L ratio : ℝ) (hL0 : 0 ≤ L) (hL1 : L < 1) (h0 : 0 ≤ ratio) (h1 : ratio < 1)
    (A B C : Nat → ℝ) :
    ∃ b, coveredFace surf edge corner L ratio A B C = some b ∧
      (b = true → ∀ x, InTriangle A B C x → Covered surf edge corner ratio x) := by
  have key : ∀ (t : STree) (_ : t.Wf) (α : ℝ), 0 ≤ α → α < 1 →
      ∃ b, faceCovered t.store t.links L α A B C = some b ∧
        (b = true → ∀ x, InTriangle A B C x → InBall t (Real.sqrt (1 - α ^ 2)) x) := by
    intro t ht α ha0 ha1
    rcases ht with ht | ht
    · exact ⟨false, by unfold faceCovered; rw [if_pos ht], fun hb => by simp at hb⟩
    obtain ⟨b, e, h, -⟩ := C25_face_covered t.store t.links ht L α hL0 hL1 ha0 ha1 A B C
    refine ⟨b, e, fun hb x hx => ?_⟩
    obtain ⟨s, hs, hall⟩ := h hb
    obtain ⟨u, v, w, hu, hv, hw, hsum, ex⟩ := hx
    refine ⟨s, hs, ?_⟩
    rw [show x = fun d => u * A d + v * B d + w * C d from funext ex]
    exact hall u v w hu hv hw hsum
  obtain ⟨b1, e1, k1⟩ := key surf hs ratio h0 h1
  obtain ⟨b2, e2, k2⟩ := key edge he 0 le_rfl one_pos
  obtain ⟨b3, e3, k3⟩ := key corner hc 0 le_rfl one_pos
  have hone : Real.sqrt (1 - (0 : ℝ) ^ 2) = 1 := by norm_num
  rw [hone] at k2 k3
  unfold coveredFace
  rw [e1]
  cases b1 with
  | true => exact ⟨true, rfl, fun _ x hx => Or.inl (k1 rfl x hx)⟩
  | false =>
    simp only [e2]
    cases b2 with
    | true => exact ⟨true, rfl, fun _ x hx => Or.inr (Or.inl (k2 rfl x hx))⟩
    | false =>
      simp only [e3]
      exact ⟨b3, rfl, fun hb x hx => Or.inr (Or.inr (k3 hb x hx))⟩

/-- Edges: a corner ball, or an edge ball shrunk by `√(1 - ratio²)`. -/
def CoveredE (edge corner : STree) (ratio : ℝ) (x : Nat → ℝ) : Prop :=
  InBall edge (Real.sqrt (1 - ratio ^ 2)) x ∨ InBall corner 1 x

theorem coveredEdge_spec (edge corner : STree) (he : edge.Wf)
    (hc : corner.Wf) (L ratio : ℝ) (hL0 : 0 ≤ L) (hL1 : L < 1) (h0 : 0 ≤ ratio) (h1 : ratio < 1)
    (A B : Nat → ℝ) :
    ∃ b, coveredEdge edge corner L ratio A B = some b ∧ (b = true → ∀ x, InSegment A B x → CoveredE edge corner ratio x) := by
  have key : ∀ (t : STree) (_ : t.Wf) (α : ℝ), 0 ≤ α → α < 1 →
      ∃ b, edgeCovered t.store t.links L α A B = some b ∧
        (b = true → ∀ x, InSegment A B x → InBall t (Real.sqrt (1 - α ^ 2)) x) := by
    intro t ht α ha0 ha1
    rcases ht with ht | ht
    · exact ⟨false, by unfold edgeCovered; rw [if_pos ht], fun hb => by simp at hb⟩
    obtain ⟨b, e, h, -⟩ := C25_edge_covered t.store t.links ht L α hL0 hL1 ha0 ha1 A B
    refine ⟨b, e, fun hb x hx => ?_⟩
    obtain ⟨s, hs, hall⟩ := h hb
    obtain ⟨u, v, hu, hv, hsum, ex⟩ := hx
    refine ⟨s, hs, ?_⟩
    rw [show x = fun d => u * A d + v * B d from funext ex]
    exact hall u v hu hv hsum
  obtain ⟨b2, e2, k2⟩ := key edge he ratio h0 h1
  obtain ⟨b3, e3, k3⟩ := key corner hc 0 le_rfl one_pos
  have hone : Real.sqrt (1 - (0 : ℝ) ^ 2) = 1 := by norm_num
  rw [hone] at k3
  unfold coveredEdge
  rw [e3]
  cases b3 with
  | true => exact ⟨true, rfl, fun _ x hx => Or.inr (k3 rfl x hx)⟩
  | false =>
    simp only [e2]
    exact ⟨b2, rfl, fun hb x hx => Or.inl (k2 hb x hx)⟩

/-! ## One call of `refine_active_pool` -/

/-- Every slot of the pool can be decoded. -/
def Decodes (S : PoolSurface (Nat → ℝ)) (level : Nat) (pool : List (PoolEntry W)) : Prop :=
  ∀ e ∈ pool, ∃ k, faceCorners midpoint3 S level e = some k

/-- `x` is in the sub-triangle of some slot. -/
def InPool (S : PoolSurface (Nat → ℝ)) (level : Nat) (pool : List (PoolEntry W)) (x : Nat → ℝ) : Prop :=
  ∃ e ∈ pool, ∃ k, faceCorners midpoint3 S level e = some k ∧ InTriangle k.c0 k.c1 k.c2 x

theorem refineSeq_pool (area : (Nat → ℝ) → (Nat → ℝ) → (Nat → ℝ) → W) (S : PoolSurface (Nat → ℝ)) (level : Nat)
    (cov : (Nat → ℝ) → (Nat → ℝ) → (Nat → ℝ) → Option Bool) (Q : (Nat → ℝ) → Prop)
    (hcov : ∀ A B C, ∃ b, cov A B C = some b ∧ (b = true → ∀ x, InTriangle A B C x → Q x))
    (pool : List (PoolEntry W)) (h : Decodes S level pool) :
    ∃ new, refineSeq (uncoveredChildren midpoint3 area cov S level) pool = some new ∧ Decodes S (level + 1) new ∧
      ∀ x, InPool S level pool x → Q x ∨ InPool S (level + 1) new x := by
  induction pool with
  | nil => exact ⟨[], rfl, fun e he => by simp at he, fun x ⟨e, he, _⟩ => by simp at he⟩
  | cons e pool ih =>
    obtain ⟨new, e1, d1, q1⟩ := ih fun e' he' => h e' (by simp [he'])
    obtain ⟨k, hk⟩ := h e (by simp)
    obtain ⟨b, hb, hq⟩ := hcov k.c0 k.c1 k.c2
    cases b with
    | true =>
      refine ⟨new, ?_, d1, ?_⟩
      · simp only [refineSeq, uncoveredChildren, hk, hb, e1, List.nil_append]
      · rintro x ⟨e', he', k', hk', hx⟩
        rcases List.mem_cons.1 he' with rfl | he'
        · rw [hk] at hk'; obtain rfl := Option.some.inj hk'
          exact Or.inl (hq rfl x hx)
        · exact q1 x ⟨e', he', k', hk', hx⟩
    | false =>
      obtain ⟨A, B, C, f0, f1, f2, f3, rfl, hr, hall⟩ := C33_face_codes midpoint3 area S level e k hk
      simp only [List.mem_cons, List.not_mem_nil, or_false, forall_eq_or_imp, forall_eq] at hall
      obtain ⟨⟨-, -, g0⟩, ⟨-, -, g1⟩, ⟨-, -, g2⟩, ⟨-, -, g3⟩⟩ := hall
      refine ⟨[f0, f1, f2, f3] ++ new, ?_, ?_, ?_⟩
      · simp only [refineSeq, uncoveredChildren, hk, hb, e1, hr]
      · intro e' he'
        simp only [List.cons_append, List.nil_append, List.mem_cons] at he'
        rcases he' with rfl | rfl | rfl | rfl | he'
        · exact ⟨_, g0⟩
        · exact ⟨_, g1⟩
        · exact ⟨_, g2⟩
        · exact ⟨_, g3⟩
        · exact d1 e' he'
      · rintro x ⟨e', he', k', hk', hx⟩
        rcases List.mem_cons.1 he' with rfl | he'
        · rw [hk] at hk'; obtain rfl := Option.some.inj hk'
          right
          rcases triangle_split A B C x hx with hx | hx | hx | hx
          · exact ⟨f0, by simp, _, g0, hx⟩
          · exact ⟨f1, by simp, _, g1, hx⟩
          · exact ⟨f2, by simp, _, g2, hx⟩
          · exact ⟨f3, by simp, _, g3, hx⟩
        · rcases q1 x ⟨e', he', k', hk', hx⟩ with hq' | ⟨e2, he2, k2, hk2, hx2⟩
          · exact Or.inl hq'
          · exact Or.inr ⟨e2, by simp [he2], k2, hk2, hx2⟩

theorem initialPool_spec (area : (Nat → ℝ) → (Nat → ℝ) → (Nat → ℝ) → W) (S : PoolSurface (Nat → ℝ)) (hv : S.Valid 3) (fs : List Nat)
    (hf : ∀ f ∈ fs, f < S.numFaces) :
    ∃ pool, initialPool area S fs = some pool ∧ Decodes S 0 pool ∧
      ∀ f ∈ fs, ∀ x, InTriangle (S.point (S.corner f 0)) (S.point (S.corner f 1)) (S.point (S.corner f 2)) x → InPool S 0 pool x := by
  induction fs with
  | nil => exact ⟨[], rfl, fun e he => by simp at he, fun f hf => by simp at hf⟩
  | cons f fs ih =>
    obtain ⟨pool, e, d, q⟩ := ih fun f' hf' => hf f' (by simp [hf'])
    have hlt := hf f (by simp)
    have hat : ∀ i, i < 3 → S.at f i = some (S.point (S.corner f i)) := fun i hi => by
      unfold PoolSurface.at; rw [if_pos ⟨hlt, hv f hlt i hi⟩]
    have hd : faceCorners midpoint3 S 0 (⟨f, [], area (S.point (S.corner f 0)) (S.point (S.corner f 1)) (S.point (S.corner f 2))⟩ : PoolEntry W) =
        some (Corners6.mids midpoint3 ⟨S.point (S.corner f 0), S.point (S.corner f 1), S.point (S.corner f 2), S.point (S.corner f 0), S.point (S.corner f 0), S.point (S.corner f 0)⟩) := by
      unfold faceCorners
      simp only [hat 0 (by omega), hat 1 (by omega), hat 2 (by omega)]
      rfl
    refine ⟨_, by simp only [initialPool, hat 0 (by omega), hat 1 (by omega), hat 2 (by omega), e]; rfl, ?_, ?_⟩
    · intro e' he'
      rcases List.mem_cons.1 he' with rfl | he'
      · exact ⟨_, hd⟩
      · exact d e' he'
    · intro f' hf' x hx
      rcases List.mem_cons.1 hf' with rfl | hf'
      · exact ⟨_, List.mem_cons_self, _, hd, hx⟩
      · obtain ⟨e2, he2, k2, hk2, hx2⟩ := q f' hf' x hx
        exact ⟨e2, by simp [he2], k2, hk2, hx2⟩

/-! ## C31 -/

/-- The parallel regions of every round run to their end. -/
def RoundsRun (area : (Nat → ℝ) → (Nat → ℝ) → (Nat → ℝ) → W) (S : PoolSurface (Nat → ℝ)) (L ratio : ℝ) :
    List Round → Nat → List (PoolEntry W) → Prop
  | [], _, _ => True
  | r :: rs, level, pool =>
    0 < r.threads ∧
    RunsToEnd (uncoveredChildren midpoint3 area (coveredFace r.surf r.edge r.corner L ratio) S level) r.threads pool r.sched₁ r.sched₂ ∧
    ∀ new, refineSeq (uncoveredChildren midpoint3 area (coveredFace r.surf r.edge r.corner L ratio) S level) pool = some new →
      RoundsRun area S L ratio rs (if new.length = 0 then level else level + 1) new

/-- The trees of a round are proper sphere trees. -/
def Round.Wf (r : Round) : Prop := r.surf.Wf ∧ r.edge.Wf ∧ r.corner.Wf

theorem refineRounds_spec (area : (Nat → ℝ) → (Nat → ℝ) → (Nat → ℝ) → W) (S : PoolSurface (Nat → ℝ)) (L ratio : ℝ)
    (hL0 : 0 ≤ L) (hL1 : L < 1) (h0 : 0 ≤ ratio) (h1 : ratio < 1) (rounds : List Round) (hwf : ∀ r ∈ rounds, r.Wf)
    (level : Nat) (pool : List (PoolEntry W)) (hd : Decodes S level pool) (hrun : RoundsRun area S L ratio rounds level pool) :
    ∃ level' pool', refineRounds area S L ratio rounds level pool = some (level', pool') ∧ Decodes S level' pool' ∧
      ∀ x, InPool S level pool x → (∃ r ∈ rounds, Covered r.surf r.edge r.corner ratio x) ∨ InPool S level' pool' x := by
  induction rounds generalizing level pool with
  | nil => exact ⟨level, pool, rfl, hd, fun x hx => Or.inr hx⟩
  | cons r rs ih =>
    obtain ⟨hT, hre, hnext⟩ := hrun
    obtain ⟨w1, w2, w3⟩ := hwf r (by simp)
    obtain ⟨new, e1, d1, q1⟩ := refineSeq_pool area S level (coveredFace r.surf r.edge r.corner L ratio)
      (Covered r.surf r.edge r.corner ratio)
      (fun A B C => coveredFace_spec r.surf r.edge r.corner w1 w2 w3 L ratio hL0 hL1 h0 h1 A B C) pool hd
    have hpar := C32_parallel_eq_sequential _ r.threads hT pool r.sched₁ r.sched₂ hre
    rw [e1] at hpar
    have hall : (new.map some).all Option.isSome = true := by simp
    have hred : (new.map some).reduceOption = new := by
      unfold List.reduceOption
      rw [List.filterMap_map]
      exact List.filterMap_some
    have hd' : Decodes S (if new.length = 0 then level else level + 1) new := by
      split
      · rename_i hl
        intro e he
        rw [List.length_eq_zero_iff.1 hl] at he; simp at he
      · exact d1
    obtain ⟨l2, p2, e2, dd2, q2⟩ := ih (fun r' hr' => hwf r' (by simp [hr'])) _ new hd' (hnext new e1)
    refine ⟨l2, p2, ?_, dd2, fun x hx => ?_⟩
    · simp only [refineRounds, hpar, Option.map_some, hall, if_true, hred, List.length_map]
      exact e2
    · rcases q1 x hx with hq | hq
      · exact Or.inl ⟨r, by simp, hq⟩
      · have hq' : InPool S (if new.length = 0 then level else level + 1) new x := by
          split
          · rename_i hl
            obtain ⟨e, he, _⟩ := hq
            rw [List.length_eq_zero_iff.1 hl] at he; simp at he
          · exact hq
        rcases q2 x hq' with ⟨r', hr', hc⟩ | hp
        · exact Or.inl ⟨r', by simp [hr'], hc⟩
        · exact Or.inr hp

/-- **C31.** Start from the pool of any list of faces and call `refine_active_pool` any number of times, with sphere trees
that only grow, with any thread counts and schedules.  No step is undefined.  If the pool is empty at the end, every
point of every one of the faces is in a corner ball, an edge ball, or a surface ball shrunk by `√(1 - ratio²)`, of the
final trees. -/
theorem C31_empty_pool_means_covered (area : (Nat → ℝ) → (Nat → ℝ) → (Nat → ℝ) → W) (S : PoolSurface (Nat → ℝ)) (hv : S.Valid 3)
    (L ratio : ℝ) (hL0 : 0 ≤ L) (hL1 : L < 1) (h0 : 0 ≤ ratio) (h1 : ratio < 1) (fs : List Nat) (hf : ∀ f ∈ fs, f < S.numFaces)
    (rounds : List Round) (hwf : ∀ r ∈ rounds, r.Wf) (surf edge corner : STree)
    (hgrow : ∀ r ∈ rounds, Grows r.surf surf ∧ Grows r.edge edge ∧ Grows r.corner corner) :
    ∃ pool, initialPool area S fs = some pool ∧ (RoundsRun area S L ratio rounds 0 pool →
      ∃ level' pool', refineRounds area S L ratio rounds 0 pool = some (level', pool') ∧
        (pool' = [] → ∀ f ∈ fs, ∀ x, InTriangle (S.point (S.corner f 0)) (S.point (S.corner f 1)) (S.point (S.corner f 2)) x →
          InBall surf (Real.sqrt (1 - ratio ^ 2)) x ∨ InBall edge 1 x ∨ InBall corner 1 x)) := by
  obtain ⟨pool, e, hd, hin⟩ := initialPool_spec area S hv fs hf
  refine ⟨pool, e, fun hrun => ?_⟩
  obtain ⟨l', p', e', -, hq⟩ := refineRounds_spec area S L ratio hL0 hL1 h0 h1 rounds hwf 0 pool hd hrun
  refine ⟨l', p', e', fun hempty f hff x hx => ?_⟩
  rcases hq x (hin f hff x hx) with ⟨r, hr, hc⟩ | ⟨e2, he2, _⟩
  · obtain ⟨g1, g2, g3⟩ := hgrow r hr
    rcases hc with hc | hc | hc
    · exact Or.inl (inBall_grows g1 hc)
    · exact Or.inr (Or.inl (inBall_grows g2 hc))
    · exact Or.inr (Or.inr (inBall_grows g3 hc))
  · rw [hempty] at he2; simp at he2

/-- **C31 for the whole surface.** If the loop is run for every patch and each pool is emptied, every point of the surface is
covered by the final trees. -/
theorem C31_all_patches (area : (Nat → ℝ) → (Nat → ℝ) → (Nat → ℝ) → W) (S : PoolSurface (Nat → ℝ)) (hv : S.Valid 3)
    (L ratio : ℝ) (hL0 : 0 ≤ L) (hL1 : L < 1) (h0 : 0 ≤ ratio) (h1 : ratio < 1) (np : Nat) (hnp : 0 < np)
    (ps : List (Nat × List Nat)) (hps : patchLoop S.numFaces np 0 np = some ps) (rounds : List Nat → List Round)
    (hwf : ∀ p ∈ ps, ∀ r ∈ rounds p.2, r.Wf) (surf edge corner : STree)
    (hgrow : ∀ p ∈ ps, ∀ r ∈ rounds p.2, Grows r.surf surf ∧ Grows r.edge edge ∧ Grows r.corner corner)
    (hend : ∀ p ∈ ps, ∀ pool, initialPool area S p.2 = some pool → RoundsRun area S L ratio (rounds p.2) 0 pool ∧
      ∀ level' pool', refineRounds area S L ratio (rounds p.2) 0 pool = some (level', pool') → pool' = []) :
    ∀ f, f < S.numFaces → ∀ x, InTriangle (S.point (S.corner f 0)) (S.point (S.corner f 1)) (S.point (S.corner f 2)) x →
      InBall surf (Real.sqrt (1 - ratio ^ 2)) x ∨ InBall edge 1 x ∨ InBall corner 1 x := by
  intro f hf x hx
  obtain ⟨-, hmem, -⟩ := C34_patches_disjoint S.numFaces np hnp ps hps
  obtain ⟨p, hp, hfp⟩ := (hmem f).1 hf
  obtain ⟨pool, e, h⟩ := C31_empty_pool_means_covered area S hv L ratio hL0 hL1 h0 h1 p.2 (fun g hg => (hmem g).2 ⟨p, hp, hg⟩)
    (rounds p.2) (hwf p hp) surf edge corner (hgrow p hp)
  obtain ⟨hr, hz⟩ := hend p hp pool e
  obtain ⟨l', p', e', hc⟩ := h hr
  exact hc (hz l' p' e') f hfp x hx

/-! ## C31 for sharp edges -/

def DecodesE (S : PoolSurface (Nat → ℝ)) (level : Nat) (pool : List (PoolEntry W)) : Prop :=
  ∀ e ∈ pool, ∃ k, edgeCorners midpoint3 S level e = some k

def InPoolE (S : PoolSurface (Nat → ℝ)) (level : Nat) (pool : List (PoolEntry W)) (x : Nat → ℝ) : Prop :=
  ∃ e ∈ pool, ∃ k, edgeCorners midpoint3 S level e = some k ∧ InSegment k.c0 k.c1 x

theorem refineSeq_poolE (len : (Nat → ℝ) → (Nat → ℝ) → W) (S : PoolSurface (Nat → ℝ)) (level : Nat)
    (cov : (Nat → ℝ) → (Nat → ℝ) → Option Bool) (Q : (Nat → ℝ) → Prop)
    (hcov : ∀ A B, ∃ b, cov A B = some b ∧ (b = true → ∀ x, InSegment A B x → Q x))
    (pool : List (PoolEntry W)) (h : DecodesE S level pool) :
    ∃ new, refineSeq (uncoveredEdges midpoint3 len cov S level) pool = some new ∧ DecodesE S (level + 1) new ∧
      ∀ x, InPoolE S level pool x → Q x ∨ InPoolE S (level + 1) new x := by
  induction pool with
  | nil => exact ⟨[], rfl, fun e he => by simp at he, fun x ⟨e, he, _⟩ => by simp at he⟩
  | cons e pool ih =>
    obtain ⟨new, e1, d1, q1⟩ := ih fun e' he' => h e' (by simp [he'])
    obtain ⟨k, hk⟩ := h e (by simp)
    obtain ⟨b, hb, hq⟩ := hcov k.c0 k.c1
    cases b with
    | true =>
      refine ⟨new, ?_, d1, ?_⟩
      · simp only [refineSeq, uncoveredEdges, hk, hb, e1, List.nil_append]
      · rintro x ⟨e', he', k', hk', hx⟩
        rcases List.mem_cons.1 he' with rfl | he'
        · rw [hk] at hk'; obtain rfl := Option.some.inj hk'
          exact Or.inl (hq rfl x hx)
        · exact q1 x ⟨e', he', k', hk', hx⟩
    | false =>
      obtain ⟨A, B, f0, f1, rfl, hr, hall⟩ := C33_edge_codes midpoint3 len S level e k hk
      simp only [List.mem_cons, List.not_mem_nil, or_false, forall_eq_or_imp, forall_eq] at hall
      obtain ⟨⟨-, -, g0⟩, ⟨-, -, g1⟩⟩ := hall
      refine ⟨[f0, f1] ++ new, ?_, ?_, ?_⟩
      · simp only [refineSeq, uncoveredEdges, hk, hb, e1, hr]
      · intro e' he'
        simp only [List.cons_append, List.nil_append, List.mem_cons] at he'
        rcases he' with rfl | rfl | he'
        · exact ⟨_, g0⟩
        · exact ⟨_, g1⟩
        · exact d1 e' he'
      · rintro x ⟨e', he', k', hk', hx⟩
        rcases List.mem_cons.1 he' with rfl | he'
        · rw [hk] at hk'; obtain rfl := Option.some.inj hk'
          right
          rcases segment_split A B x hx with hx | hx
          · exact ⟨f0, by simp, _, g0, hx⟩
          · exact ⟨f1, by simp, _, g1, hx⟩
        · rcases q1 x ⟨e', he', k', hk', hx⟩ with hq' | ⟨e2, he2, k2, hk2, hx2⟩
          · exact Or.inl hq'
          · exact Or.inr ⟨e2, by simp [he2], k2, hk2, hx2⟩

theorem initialEdges_spec (len : (Nat → ℝ) → (Nat → ℝ) → W) (S : PoolSurface (Nat → ℝ)) (hv : S.Valid 2) (n : Nat) (hn : n ≤ S.numFaces) :
    ∃ pool, initialEdges len S n = some pool ∧ DecodesE S 0 pool ∧
      ∀ f, f < n → ∀ x, InSegment (S.point (S.corner f 0)) (S.point (S.corner f 1)) x → InPoolE S 0 pool x := by
  induction n with
  | zero => exact ⟨[], rfl, fun e he => by simp at he, fun f hf => by omega⟩
  | succ n ih =>
    obtain ⟨pool, e, d, q⟩ := ih (by omega)
    have hat : ∀ i, i < 2 → S.at n i = some (S.point (S.corner n i)) := fun i hi => by
      unfold PoolSurface.at; rw [if_pos ⟨by omega, hv n (by omega) i hi⟩]
    have hd : edgeCorners midpoint3 S 0 (⟨n, [], len (S.point (S.corner n 0)) (S.point (S.corner n 1))⟩ : PoolEntry W) =
        some ⟨S.point (S.corner n 0), S.point (S.corner n 1), midpoint3 (S.point (S.corner n 0)) (S.point (S.corner n 1))⟩ := by
      unfold edgeCorners
      simp only [hat 0 (by omega), hat 1 (by omega)]
      rfl
    refine ⟨_, by simp only [initialEdges, hat 0 (by omega), hat 1 (by omega), e]; rfl, ?_, ?_⟩
    · intro e' he'
      rcases List.mem_append.1 he' with he' | he'
      · exact d e' he'
      · rw [List.mem_singleton.1 he']; exact ⟨_, hd⟩
    · intro f hf x hx
      by_cases hfn : f = n
      · subst hfn
        exact ⟨_, List.mem_append_right _ (List.mem_singleton_self _), _, hd, hx⟩
      · obtain ⟨e2, he2, k2, hk2, hx2⟩ := q f (by omega) x hx
        exact ⟨e2, by simp [he2], k2, hk2, hx2⟩

theorem refineEdgeRounds_spec (len : (Nat → ℝ) → (Nat → ℝ) → W) (S : PoolSurface (Nat → ℝ)) (L ratio : ℝ)
    (hL0 : 0 ≤ L) (hL1 : L < 1) (h0 : 0 ≤ ratio) (h1 : ratio < 1) (rounds : List (STree × STree))
    (hwf : ∀ r ∈ rounds, r.1.Wf ∧ r.2.Wf)
    (level : Nat) (pool : List (PoolEntry W)) (hd : DecodesE S level pool) :
    ∃ level' pool', refineEdgeRounds len S L ratio rounds level pool = some (level', pool') ∧
      ∀ x, InPoolE S level pool x → (∃ r ∈ rounds, CoveredE r.1 r.2 ratio x) ∨ InPoolE S level' pool' x := by
  induction rounds generalizing level pool with
  | nil => exact ⟨level, pool, rfl, fun x hx => Or.inr hx⟩
  | cons r rs ih =>
    obtain ⟨w1, w2⟩ := hwf r (by simp)
    obtain ⟨new, e1, d1, q1⟩ := refineSeq_poolE len S level (coveredEdge r.1 r.2 L ratio) (CoveredE r.1 r.2 ratio)
      (fun A B => coveredEdge_spec r.1 r.2 w1 w2 L ratio hL0 hL1 h0 h1 A B) pool hd
    have hd' : DecodesE S (if new.length = 0 then level else level + 1) new := by
      split
      · rename_i hl
        intro e he
        rw [List.length_eq_zero_iff.1 hl] at he; simp at he
      · exact d1
    obtain ⟨l2, p2, e2, q2⟩ := ih (fun r' hr' => hwf r' (by simp [hr'])) _ new hd'
    refine ⟨l2, p2, ?_, fun x hx => ?_⟩
    · simp only [refineEdgeRounds, e1]
      exact e2
    · rcases q1 x hx with hq | hq
      · exact Or.inl ⟨r, by simp, hq⟩
      · have hq' : InPoolE S (if new.length = 0 then level else level + 1) new x := by
          split
          · rename_i hl
            obtain ⟨e, he, _⟩ := hq
            rw [List.length_eq_zero_iff.1 hl] at he; simp at he
          · exact hq
        rcases q2 x hq' with ⟨r', hr', hc⟩ | hp
        · exact Or.inl ⟨r', by simp [hr'], hc⟩
        · exact Or.inr hp

/-- **C31, sharp edges.** The same for the loop over the sharp edges: if the pool of edges becomes empty, every point of every
sharp edge is in a corner ball or in a shrunk edge ball. -/
theorem C31_edges_covered (len : (Nat → ℝ) → (Nat → ℝ) → W) (S : PoolSurface (Nat → ℝ)) (hv : S.Valid 2)
    (L ratio : ℝ) (hL0 : 0 ≤ L) (hL1 : L < 1) (h0 : 0 ≤ ratio) (h1 : ratio < 1) (rounds : List (STree × STree))
    (hwf : ∀ r ∈ rounds, r.1.Wf ∧ r.2.Wf) (edge corner : STree)
    (hgrow : ∀ r ∈ rounds, Grows r.1 edge ∧ Grows r.2 corner) :
    ∃ pool level' pool', initialEdges len S S.numFaces = some pool ∧ refineEdgeRounds len S L ratio rounds 0 pool = some (level', pool') ∧
      (pool' = [] → ∀ f, f < S.numFaces → ∀ x, InSegment (S.point (S.corner f 0)) (S.point (S.corner f 1)) x →
        InBall edge (Real.sqrt (1 - ratio ^ 2)) x ∨ InBall corner 1 x) := by
  obtain ⟨pool, e, hd, hin⟩ := initialEdges_spec len S hv S.numFaces le_rfl
  obtain ⟨l', p', e', hq⟩ := refineEdgeRounds_spec len S L ratio hL0 hL1 h0 h1 rounds hwf 0 pool hd
  refine ⟨pool, l', p', e, e', fun hempty f hff x hx => ?_⟩
  rcases hq x (hin f hff x hx) with ⟨r, hr, hc⟩ | ⟨e2, he2, _⟩
  · obtain ⟨g1, g2⟩ := hgrow r hr
    rcases hc with hc | hc
    · exact Or.inl (inBall_grows g1 hc)
    · exact Or.inr (inBall_grows g2 hc)
  · rw [hempty] at he2; simp at he2

-- one face, one big surface sphere, no edge or corner spheres: one round empties the pool
example : ∃ (S : PoolSurface (Nat → ℝ)) (r : Round) (pool : List (PoolEntry Unit)), S.Valid 3 ∧ S.numFaces = 1 ∧ r.Wf ∧ r.threads = 2 ∧
    initialPool (fun _ _ _ => ()) S [0] = some pool ∧ RoundsRun (fun _ _ _ => ()) S 0.1 0 [r] 0 pool ∧
    refineRounds (fun _ _ _ => ()) S 0.1 0 [r] 0 pool = some (0, []) := by
  obtain ⟨P, ln, h, hl, hn, h0, h1⟩ := twoSpheres
  have q : Real.sqrt (1 - (0 : ℝ) ^ 2) = 1 := by simp
  have d1 : euclid 3 (mkSphere 0 0 0 0) (mkSphere 0 0 0 1) = 0 := by simp [euclid, mkSphere, Finset.sum_range_succ]
  have d2 : euclid 3 (mkSphere 0.5 0 0 0) (mkSphere 0 0 0 1) = 0.5 := by exact euclid_mk (by norm_num) (by norm_num)
  have d3 : euclid 3 (mkSphere 0 0.5 0 0) (mkSphere 0 0 0 1) = 0.5 := by exact euclid_mk (by norm_num) (by norm_num)
  have r0 : (mkSphere 0 0 0 1) 3 = 1 := by simp [mkSphere]
  have hcov : faceCovered P ln 0.1 0 (mkSphere 0 0 0 0) (mkSphere 0.5 0 0 0) (mkSphere 0 0.5 0 0) = some true := by
    obtain ⟨b, e, -, hb⟩ := C25_face_covered P ln h 0.1 0 (by norm_num) (by norm_num) le_rfl (by norm_num) (mkSphere 0 0 0 0)
      (mkSphere 0.5 0 0 0) (mkSphere 0 0.5 0 0)
    rw [e, hb hl ⟨0, by omega, ?_⟩]
    rintro X (rfl | rfl | rfl) <;> rw [h0, q, r0]
    · rw [d1]; norm_num
    · rw [d2]; norm_num
    · rw [d3]; norm_num
  set S : PoolSurface (Nat → ℝ) := ⟨3, fun i => if i = 0 then mkSphere 0 0 0 0 else if i = 1 then mkSphere 0.5 0 0 0 else mkSphere 0 0.5 0 0, 1, fun _ i => i⟩ with hS
  set none' : STree := ⟨⟨fun _ _ => 0, 0, 3, realLt⟩, ln⟩ with hnone
  have hfa : uncoveredChildren midpoint3 (fun _ _ _ => ()) (coveredFace ⟨P, ln⟩ none' none' 0.1 0) S 0 (⟨0, [], ()⟩ : PoolEntry Unit) = some [] := by
    have hk : faceCorners midpoint3 S 0 (⟨0, [], ()⟩ : PoolEntry Unit) = some (Corners6.mids midpoint3 ⟨mkSphere 0 0 0 0, mkSphere 0.5 0 0 0, mkSphere 0 0.5 0 0, mkSphere 0 0 0 0, mkSphere 0 0 0 0, mkSphere 0 0 0 0⟩) := rfl
    unfold uncoveredChildren
    rw [hk]
    simp only [Corners6.mids, coveredFace, hcov]
  obtain ⟨s1, s2, hrun⟩ := C32_sequential_build_runs (uncoveredChildren midpoint3 (fun _ _ _ => ()) (coveredFace ⟨P, ln⟩ none' none' 0.1 0) S 0) 2 [(⟨0, [], ()⟩ : PoolEntry Unit)]
  have hseq : refineSeq (uncoveredChildren midpoint3 (fun _ _ _ => ()) (coveredFace ⟨P, ln⟩ none' none' 0.1 0) S 0) [(⟨0, [], ()⟩ : PoolEntry Unit)] = some [] := by
    rw [refineSeq_single, hfa]
  refine ⟨S, ⟨⟨P, ln⟩, none', none', 2, s1, s2⟩, [⟨0, [], ()⟩], ?_, rfl, ⟨Or.inr h, Or.inl rfl, Or.inl rfl⟩, rfl, rfl, ⟨by norm_num, hrun, fun _ _ => trivial⟩, ?_⟩
  · intro f _ i hi; exact hi
  · simp only [refineRounds]
    rw [C32_parallel_eq_sequential _ 2 (by norm_num) _ s1 s2 hrun, hseq]
    rfl

/-! ## C69 -/

theorem inTriangle_midpoint {A B C x y : Nat → ℝ} (hx : InTriangle A B C x) (hy : InTriangle A B C y) : InTriangle A B C (midpoint3 x y) := by
  obtain ⟨u, v, w, hu, hv, hw, hs, e⟩ := hx
  obtain ⟨u', v', w', hu', hv', hw', hs', e'⟩ := hy
  refine ⟨(u + u') / 2, (v + v') / 2, (w + w') / 2, by linarith, by linarith, by linarith, by linarith, fun d => ?_⟩
  rw [midpoint3, e, e']; ring

theorem inSegment_midpoint {A B x y : Nat → ℝ} (hx : InSegment A B x) (hy : InSegment A B y) : InSegment A B (midpoint3 x y) := by
  obtain ⟨u, v, hu, hv, hs, e⟩ := hx
  obtain ⟨u', v', hu', hv', hs', e'⟩ := hy
  refine ⟨(u + u') / 2, (v + v') / 2, by linarith, by linarith, by linarith, fun d => ?_⟩
  rw [midpoint3, e, e']; ring

theorem decodeFace_inside (A B C : Nat → ℝ) (bits : List Bool) (k k' : Corners6 (Nat → ℝ))
    (hk : InTriangle A B C k.c0 ∧ InTriangle A B C k.c1 ∧ InTriangle A B C k.c2 ∧ InTriangle A B C k.c3 ∧ InTriangle A B C k.c4 ∧ InTriangle A B C k.c5)
    (n : Nat) (h : decodeFace midpoint3 bits k n = some k') :
    InTriangle A B C k'.c0 ∧ InTriangle A B C k'.c1 ∧ InTriangle A B C k'.c2 ∧ InTriangle A B C k'.c3 ∧ InTriangle A B C k'.c4 ∧ InTriangle A B C k'.c5 := by
  induction n generalizing k' with
  | zero => rw [decodeFace] at h; rw [← Option.some.inj h]; exact hk
  | succ n ih =>
    rw [decodeFace] at h
    split at h
    · rename_i k1 b0 b1 e1 e2 e3
      obtain ⟨h0, h1, h2, h3, h4, h5⟩ := ih k1 e1
      rw [← Option.some.inj h]
      cases b0 <;> cases b1 <;> simp only [Corners6.descend, Corners6.mids, Bool.not_false, Bool.not_true, Bool.and_true, Bool.and_false, Bool.false_and, if_true, if_false, Bool.false_eq_true] <;>
        refine ⟨?_, ?_, ?_, inTriangle_midpoint ?_ ?_, inTriangle_midpoint ?_ ?_, inTriangle_midpoint ?_ ?_⟩ <;> assumption
    · simp at h

theorem inTriangle_self (A B C : Nat → ℝ) : InTriangle A B C A ∧ InTriangle A B C B ∧ InTriangle A B C C :=
  ⟨⟨1, 0, 0, by norm_num, le_rfl, le_rfl, by norm_num, fun d => by ring⟩, ⟨0, 1, 0, le_rfl, by norm_num, le_rfl, by norm_num, fun d => by ring⟩,
    ⟨0, 0, 1, le_rfl, le_rfl, by norm_num, by norm_num, fun d => by ring⟩⟩

/-- Every decoded sub-triangle lies in its face. -/
theorem faceCorners_inside (S : PoolSurface (Nat → ℝ)) (level : Nat) (e : PoolEntry W) (k : Corners6 (Nat → ℝ))
    (h : faceCorners midpoint3 S level e = some k) :
    e.parent < S.numFaces ∧ ∀ c, (c = k.c0 ∨ c = k.c1 ∨ c = k.c2) →
      InTriangle (S.point (S.corner e.parent 0)) (S.point (S.corner e.parent 1)) (S.point (S.corner e.parent 2)) c := by
  have at_some : ∀ i a, S.at e.parent i = some a → e.parent < S.numFaces ∧ a = S.point (S.corner e.parent i) := by
    intro i a hi
    unfold PoolSurface.at at hi
    split at hi
    · rename_i hc; exact ⟨hc.1, (Option.some.inj hi).symm⟩
    · simp at hi
  unfold faceCorners at h
  split at h
  · rename_i a b c ha hb hc
    obtain ⟨hp, rfl⟩ := at_some 0 a ha
    obtain ⟨-, rfl⟩ := at_some 1 b hb
    obtain ⟨-, rfl⟩ := at_some 2 c hc
    obtain ⟨t0, t1, t2⟩ := inTriangle_self (S.point (S.corner e.parent 0)) (S.point (S.corner e.parent 1)) (S.point (S.corner e.parent 2))
    obtain ⟨h0, h1, h2, -⟩ := decodeFace_inside _ _ _ e.bits _ k
      ⟨t0, t1, t2, inTriangle_midpoint t0 t1, inTriangle_midpoint t1 t2, inTriangle_midpoint t2 t0⟩ level h
    refine ⟨hp, fun c hc => ?_⟩
    rcases hc with rfl | rfl | rfl <;> assumption
  · simp at h

theorem inTriangle_trans {A B C a b c x : Nat → ℝ} (ha : InTriangle A B C a) (hb : InTriangle A B C b) (hc : InTriangle A B C c)
    (hx : InTriangle a b c x) : InTriangle A B C x := by
  obtain ⟨u, v, w, hu, hv, hw, hs, e⟩ := hx
  obtain ⟨u1, v1, w1, hu1, hv1, hw1, hs1, e1⟩ := ha
  obtain ⟨u2, v2, w2, hu2, hv2, hw2, hs2, e2⟩ := hb
  obtain ⟨u3, v3, w3, hu3, hv3, hw3, hs3, e3⟩ := hc
  refine ⟨u * u1 + v * u2 + w * u3, u * v1 + v * v2 + w * v3, u * w1 + v * w2 + w * w3, by positivity, by positivity, by positivity, ?_, fun d => ?_⟩
  · calc _ = u * (u1 + v1 + w1) + v * (u2 + v2 + w2) + w * (u3 + v3 + w3) := by ring
      _ = 1 := by rw [hs1, hs2, hs3]; linarith
  · rw [e, e1, e2, e3]; ring

/-- **C69, faces.** A dart drawn from a nonempty pool whose slots decode is a point of the face it is recorded for, and that
face is the parent of some slot; nothing is read out of range. -/
theorem C69_dart_on_its_face (S : PoolSurface (Nat → ℝ)) (level : Nat) (pool : List (PoolEntry W)) (hne : pool ≠ [])
    (hd : ∀ e ∈ pool, ∃ k, faceCorners midpoint3 S level e = some k) (cdf : Nat → ℝ) (u : ℝ) (us : Nat → ℝ) (hus : ∀ k, 0 < k → k < 3 → 0 ≤ us k ∧ us k < 1) :
    ∃ p f, sampleActiveFace S level pool cdf u us = some (p, f) ∧ (∃ e ∈ pool, e.parent = f) ∧
      InTriangle (S.point (S.corner f 0)) (S.point (S.corner f 1)) (S.point (S.corner f 2)) p := by
  have hl : 0 < pool.length := List.length_pos_of_ne_nil hne
  obtain ⟨i, ei, hi⟩ := C35_search_in_range pool.length hl (fun i => realLt u (cdf i)) (fun i => realLt (cdf i) u) pool.length le_rfl
  have hm : pool[i] ∈ pool := List.getElem_mem hi
  obtain ⟨k, hk⟩ := hd _ hm
  obtain ⟨p, v, ep, hv0, hvs, hvp⟩ := C37_simplex 3 (by omega) (fun j => if j = 0 then k.c0 else if j = 1 then k.c1 else k.c2) us hus
  obtain ⟨-, hin⟩ := faceCorners_inside S level _ k hk
  refine ⟨p, pool[i].parent, ?_, ⟨_, hm, rfl⟩, ?_⟩
  · unfold sampleActiveFace
    simp only [ei, List.getElem?_eq_getElem hi, hk, ep]
  · refine inTriangle_trans (hin k.c0 (by simp)) (hin k.c1 (by simp)) (hin k.c2 (by simp)) ⟨v 0, v 1, v 2, hv0 0 (by omega), hv0 1 (by omega), hv0 2 (by omega), ?_, fun d => ?_⟩
    · rw [← hvs]; simp [Finset.sum_range_succ]
    · rw [hvp]; simp [Finset.sum_range_succ]

theorem decodeEdge_inside (A B : Nat → ℝ) (bits : List Bool) (k k' : Corners3 (Nat → ℝ))
    (hk : InSegment A B k.c0 ∧ InSegment A B k.c1 ∧ InSegment A B k.c2)
    (n : Nat) (h : decodeEdge midpoint3 bits k n = some k') : InSegment A B k'.c0 ∧ InSegment A B k'.c1 ∧ InSegment A B k'.c2 := by
  induction n generalizing k' with
  | zero => rw [decodeEdge] at h; rw [← Option.some.inj h]; exact hk
  | succ n ih =>
    rw [decodeEdge] at h
    split at h
    · rename_i k1 b e1 e2
      obtain ⟨h0, h1, h2⟩ := ih k1 e1
      rw [← Option.some.inj h]
      cases b
      · exact ⟨h0, h2, inSegment_midpoint h0 h2⟩
      · exact ⟨h2, h1, inSegment_midpoint h2 h1⟩
    · simp at h

/-- **C69, edges.** A dart drawn from the pool of sharp edges is a point of the edge it is recorded for. -/
theorem C69_dart_on_its_edge (S : PoolSurface (Nat → ℝ)) (level : Nat) (pool : List (PoolEntry W)) (hne : pool ≠ [])
    (hd : ∀ e ∈ pool, ∃ k, edgeCorners midpoint3 S level e = some k) (cdf : Nat → ℝ) (u v : ℝ) (hv0 : 0 ≤ v) (hv1 : v < 1) :
    ∃ p f, sampleActiveEdge S level pool cdf u v = some (p, f) ∧ (∃ e ∈ pool, e.parent = f) ∧
      InSegment (S.point (S.corner f 0)) (S.point (S.corner f 1)) p := by
  have hl : 0 < pool.length := List.length_pos_of_ne_nil hne
  obtain ⟨i, ei, hi⟩ := C35_search_in_range pool.length hl (fun i => realLt u (cdf i)) (fun i => realLt (cdf i) u) pool.length le_rfl
  have hm : pool[i] ∈ pool := List.getElem_mem hi
  obtain ⟨k, hk⟩ := hd _ hm
  refine ⟨_, pool[i].parent, by unfold sampleActiveEdge; simp only [ei, List.getElem?_eq_getElem hi, hk]; rfl, ⟨_, hm, rfl⟩, ?_⟩
  have at_some : ∀ i' a, S.at pool[i].parent i' = some a → a = S.point (S.corner pool[i].parent i') := by
    intro i' a hi'
    unfold PoolSurface.at at hi'
    split at hi'
    · exact (Option.some.inj hi').symm
    · simp at hi'
  unfold edgeCorners at hk
  split at hk
  · rename_i a b ha hb
    obtain rfl := at_some 0 a ha
    obtain rfl := at_some 1 b hb
    have s0 : InSegment (S.point (S.corner pool[i].parent 0)) (S.point (S.corner pool[i].parent 1)) (S.point (S.corner pool[i].parent 0)) :=
      ⟨1, 0, by norm_num, le_rfl, by norm_num, fun d => by ring⟩
    have s1 : InSegment (S.point (S.corner pool[i].parent 0)) (S.point (S.corner pool[i].parent 1)) (S.point (S.corner pool[i].parent 1)) :=
      ⟨0, 1, le_rfl, by norm_num, by norm_num, fun d => by ring⟩
    obtain ⟨⟨p, q, hp, hq, hs, e⟩, ⟨p', q', hp', hq', hs', e'⟩, -⟩ := decodeEdge_inside _ _ _ _ k ⟨s0, s1, inSegment_midpoint s0 s1⟩ level hk
    refine ⟨(1 - v) * p + v * p', (1 - v) * q + v * q', ?_, ?_, ?_, fun d => ?_⟩
    · have : 0 ≤ 1 - v := by linarith
      positivity
    · have : 0 ≤ 1 - v := by linarith
      positivity
    · calc _ = (1 - v) * (p + q) + v * (p' + q') := by ring
        _ = 1 := by rw [hs, hs']; ring
    · simp only [e, e']; ring
  · simp at hk

/-- **C69, precondition.** From an empty pool the search starts at index `size - 1` of an empty table. -/
theorem C69_empty_pool_undefined (S : PoolSurface (Nat → ℝ)) (level : Nat) (cdf : Nat → ℝ) (u : ℝ) (us : Nat → ℝ) :
    sampleActiveFace S level ([] : List (PoolEntry W)) cdf u us = none := rfl

-- a pool with one sub-triangle of one face: the second child, at level 1
example : ∃ p, sampleActiveFace ⟨3, fun i => if i = 0 then mkSphere 0 0 0 0 else if i = 1 then mkSphere 1 0 0 0 else mkSphere 0 1 0 0, 1, fun _ i => i⟩ 1
    [(⟨0, [false, true], ()⟩ : PoolEntry Unit)] (fun _ => 1) 0.5 (fun _ => 0.25) = some (p, 0) ∧
    InTriangle (mkSphere 0 0 0 0) (mkSphere 1 0 0 0) (mkSphere 0 1 0 0) p := by
  obtain ⟨p, f, e, ⟨e', he', rfl⟩, h⟩ := C69_dart_on_its_face ⟨3, fun i => if i = 0 then mkSphere 0 0 0 0 else if i = 1 then mkSphere 1 0 0 0 else mkSphere 0 1 0 0, 1, fun _ i => i⟩ 1
    [(⟨0, [false, true], ()⟩ : PoolEntry Unit)] (by simp) (by intro e he; rw [List.mem_singleton.1 he]; exact ⟨_, rfl⟩) (fun _ => 1) 0.5 (fun _ => 0.25)
    (fun _ _ _ => ⟨by norm_num, by norm_num⟩)
  rw [List.mem_singleton.1 he'] at e h
  exact ⟨p, e, h⟩

end VoroCrust
