import Verif.Model.Execute
import Verif.Props.Clouds
import Verif.Props.Sharp
import Mathlib.Topology.Order.IntermediateValue

/-! # Properties C93 and C94: the sampling stages one after the other -/

namespace VoroCrust

/-! ## Detection -/

/-- A clean input: triangles with three different corners in range, at least one, a positive number of threads, a Lipschitz constant below one, a threshold angle of at most 90
degrees, random numbers below one, and, if there is a sizing function, one that is not empty and not negative. -/
structure VcInput.Ok (I : VcInput) : Prop where
  mesh : TriMesh I.num I.faces
  simple : SimpleFaces I.faces
  ne : I.faces ≠ []
  rmin : I.rmin = 0
  rmax : 0 ≤ I.rmax
  L0 : 0 ≤ I.L
  L1 : I.L < 1
  th0 : 0 ≤ I.th
  th1 : I.th < 1
  T : 0 < I.T
  U : ∀ k, 0 ≤ I.U k ∧ I.U k < 1
  Ut : ∀ t k, 0 ≤ I.Ut t k ∧ I.Ut t k < 1
  size : ∀ t, I.size = some t → SphereTree t.store t.links
  hm : ∀ Z cs t l h, I.hm Z cs t l = some h → 0 ≤ h

theorem VcInput.Ok.sizeAt {I : VcInput} (h : I.Ok) (x : Nat → ℝ) : ∃ s, VoroCrust.sizeAt I.size x = some s ∧ 0 ≤ s := by
  cases e : I.size with
  | none => exact ⟨⊤, rfl, le_top⟩
  | some t =>
    obtain ⟨c, hc, es, -⟩ := sizeAt_spec t (h.size t e) x
    exact ⟨_, es, WithTop.coe_le_coe.2 ((h.size t e).nonneg c hc)⟩

theorem getD_lt {α : Type} {l : List α} {k : Nat} (hk : k < l.length) (d : α) : l.getD k d = l[k] := by
  rw [List.getD_eq_getElem?_getD, List.getElem?_eq_getElem hk]; rfl

theorem VcInput.Ok.surface {I : VcInput} (h : I.Ok) : I.surface.Valid 3 ∧ 0 < I.surface.numFaces := by
  refine ⟨fun f hf i hi => ?_, List.length_pos_iff.2 h.ne⟩
  have hf : f < I.faces.length := hf
  have hm := h.mesh _ (List.getElem_mem hf)
  show (I.faces.getD f []).getD i 0 < I.num
  rw [getD_lt hf, getD_lt (l := I.faces[f]) (by omega)]
  exact hm.2 _ (List.getElem_mem _)

theorem VcInput.edges_valid (I : VcInput) {es : List (Nat × Nat)} (h : ∀ e ∈ es, e.1 < e.2 ∧ e.2 < I.num) : (I.edges es).Valid 2 := by
  intro f hf i hi
  have hf : f < es.length := hf
  have hm := h _ (List.getElem_mem hf)
  show (if i = 0 then (es.getD f (0, 0)).1 else (es.getD f (0, 0)).2) < I.num
  rw [getD_lt hf]
  split <;> omega

/-- What the detection finds: the sharp edges by the dihedral angles and the sharp corners by the edges meeting there, a cloud of `mf` points of the surface, one of `me` points of the
sharp edges if there are any. -/
structure DetectedOk (I : VcInput) (me mf : Nat) (D : Detected) : Prop where
  normals : D.normals = some I.normals
  numFaces : D.numFaces = some I.faces.length
  sharp : sharpEdges I.num I.faces (dihedralSharp I.th fun f => I.normals.getD f fun _ => 0) = some D.edges
  ends : ∀ e ∈ D.edges, e.1 < e.2 ∧ e.2 < I.num
  sorted : D.corners.Pairwise (· < ·)
  corner : ∀ p, p ∈ D.corners ↔ p < I.num ∧ CornerSpec D.edges (bendSharp I.th fun p => toV3 (I.point p)) p
  cloud : CloudOk D.cloud mf fun k => OnFace I.surface I.normals (I.U (2 * (if D.edges.length > 0 then me else 0) + 3 * k))
  lines : if D.edges = [] then D.lines = Cloud.none else CloudOk D.lines me fun k => OnEdge (I.edges D.edges) (I.U (2 * k)) (I.U (2 * k + 1))

theorem VcInput.normals_get (I : VcInput) {f : Nat} (hf : f < I.faces.length) : I.normals[f]? = some (triNormal (I.tri f)).1 := by
  unfold VcInput.normals
  rw [List.getElem?_map, List.getElem?_range hf]
  rfl

theorem VcInput.normals_length (I : VcInput) : I.normals.length = I.faces.length := by simp [VcInput.normals]

theorem detectClean_spec {I : VcInput} (h : I.Ok) (me mf : Nat) : ∃ D, detectClean I me mf = some D ∧ DetectedOk I me mf D := by
  obtain ⟨es, e1, hes, -⟩ := C61_multiplicity I.num I.faces h.mesh h.simple (dihedralSharp I.th fun f => I.normals.getD f fun _ => 0)
  obtain ⟨cs, e2, hs, hc⟩ := C78_corners I.num es hes (bendSharp I.th fun p => toV3 (I.point p)) (bendSharp_symm _ _)
  obtain ⟨cloud, e3, h3⟩ := faceCloud_spec I.rb h.surface.1 h.surface.2 (N := I.normals) I.normals_length (U := fun k => I.U (2 * (if es.length > 0 then me else 0) + k)) (fun k => h.U _) mf
  obtain ⟨lines, e4, h4⟩ : ∃ lines, (if es.length > 0 then edgeCloud I.rb (I.edges es) I.U me else some Cloud.none) = some lines ∧
      if es = [] then lines = Cloud.none else CloudOk lines me fun k => OnEdge (I.edges es) (I.U (2 * k)) (I.U (2 * k + 1)) := by
    by_cases h0 : es = []
    · subst h0; exact ⟨Cloud.none, rfl, by rw [if_pos rfl]⟩
    · have hp : es.length > 0 := List.length_pos_iff.2 h0
      obtain ⟨l, e, hl⟩ := edgeCloud_spec I.rb (I.edges_valid hes) (show 0 < (I.edges es).numFaces from hp) h.U me
      exact ⟨l, by rw [if_pos hp, e], by rw [if_neg h0]; exact hl⟩
  refine ⟨⟨some I.normals, some I.faces.length, es, cs, lines, cloud⟩, ?_, rfl, rfl, e1, hes, hs, hc, h3, h4⟩
  unfold detectClean
  rw [e1]
  simp only [e2, e4, e3]

/-! ## Corner spheres -/

theorem DetectedOk.plane {I : VcInput} {me mf : Nat} {D : Detected} (h : I.Ok) (hD : DetectedOk I me mf D) (hf : 0 < mf) (x : Nat → ℝ) :
    ∃ s, D.cloud.plane I.rmin I.th x = some s ∧ 0 ≤ s ∧ IsNearest D.cloud (fun k => 0 < euclid 3 x (D.cloud.tree.pts k) ∧ ¬ NearPlane I.th x (D.cloud.tree.pts k) (D.cloud.dirAt k)) x s := by
  obtain ⟨⟨s, e, hs⟩, -, -⟩ := C92_distances D.cloud hD.cloud.wf (by rw [hD.cloud.num]; exact hf) I.rmin I.th h.rmin.ge h.th0 h.th1 x fun _ => 0
  rw [h.rmin] at hs
  exact ⟨s, e, hs.nonneg, hs⟩

theorem DetectedOk.line {I : VcInput} {me mf : Nat} {D : Detected} (h : I.Ok) (hD : DetectedOk I me mf D) (he : 0 < me) (hne : D.edges ≠ []) (x : Nat → ℝ) :
    ∃ s, D.lines.line I.rmin I.th x = some s ∧ 0 ≤ s ∧ IsNearest D.lines (fun k => 0 < euclid 3 x (D.lines.tree.pts k) ∧ ¬ NearLine I.th x (D.lines.tree.pts k) (D.lines.dirAt k)) x s := by
  have hl := hD.lines
  rw [if_neg hne] at hl
  obtain ⟨-, ⟨s, e, hs⟩, -⟩ := C92_distances D.lines hl.wf (by rw [hl.num]; exact he) I.rmin I.th h.rmin.ge h.th0 h.th1 x fun _ => 0
  rw [h.rmin] at hs
  exact ⟨s, e, hs.nonneg, hs⟩

theorem DetectedOk.edges_ne {I : VcInput} {me mf : Nat} {D : Detected} (hD : DetectedOk I me mf D) (hc : D.corners ≠ []) : D.edges ≠ [] := by
  intro h0
  obtain ⟨p, hp⟩ := List.exists_mem_of_ne_nil _ hc
  obtain ⟨-, hp⟩ := (hD.corner p).1 hp
  have : sharpNbrs D.edges p = ∅ := by rw [h0]; ext q; simp [sharpNbrs]
  unfold CornerSpec at hp
  rw [this] at hp
  simp only [Set.ncard_empty] at hp
  rcases hp with hp | hp | ⟨a, b, -, hab, -⟩
  · omega
  · omega
  · exact absurd (hab ▸ Set.mem_insert a {b} : a ∈ (∅ : Set Nat)) (Set.notMem_empty a)

theorem cornerPoints_spec (I : VcInput) (ps : List Nat) (h : ∀ p ∈ ps, p < I.num) : I.cornerPoints ps = some (ps.map I.point) := by
  induction ps with
  | nil => rfl
  | cons p ps ih =>
    rw [VcInput.cornerPoints, if_pos (h p (by simp)), ih fun q hq => h q (by simp [hq])]
    rfl

/-- Distances from `x` to the points of the cloud that do not look flat from there bound `ρ`. -/
def PlaneGap (I : VcInput) (D : Detected) (x : Nat → ℝ) (ρ : ℝ) : Prop :=
  ∀ k, k < D.cloud.tree.num → 0 < euclid 3 x (D.cloud.tree.pts k) → ¬ NearPlane I.th x (D.cloud.tree.pts k) (D.cloud.dirAt k) → ρ ≤ 0.4 * euclid 3 x (D.cloud.tree.pts k)

/-- The same for the points on the sharp edges. -/
def LineGap (I : VcInput) (D : Detected) (x : Nat → ℝ) (ρ : ℝ) : Prop :=
  ∀ k, k < D.lines.tree.num → 0 < euclid 3 x (D.lines.tree.pts k) → ¬ NearLine I.th x (D.lines.tree.pts k) (D.lines.dirAt k) → ρ ≤ 0.4 * euclid 3 x (D.lines.tree.pts k)

/-- The same for the points of the surface and a point `x` on a face with normal `w`. -/
def FaceGap (I : VcInput) (D : Detected) (x : Nat → ℝ) (w : V3) (ρ : ℝ) : Prop :=
  ∀ k, k < D.cloud.tree.num → 1e-10 < euclid 3 x (D.cloud.tree.pts k) → ¬ (NearPlane I.th x (D.cloud.tree.pts k) (D.cloud.dirAt k) ∧ NearPlane I.th x (D.cloud.tree.pts k) w) →
    ρ ≤ 0.4 * euclid 3 x (D.cloud.tree.pts k)

/-- The prescribed size nearest to `x` bounds `ρ`. -/
def SizeBound (I : VcInput) (x : Nat → ℝ) (ρ : ℝ) : Prop :=
  ∀ t, I.size = some t → ∃ c, c < t.store.num ∧ ρ ≤ t.store.pts c 3 ∧ ∀ k, k < t.store.num → euclid 3 x (t.store.pts c) ≤ euclid 3 x (t.store.pts k)

theorem gap_of_nearest {C : Cloud} {far : Nat → Prop} {x : Nat → ℝ} {s : WithTop ℝ} (hs : IsNearest C far x s) {ρ : ℝ} (hρ : ∀ h : ℝ, s = (h : WithTop ℝ) → ρ ≤ 0.4 * h) {k : Nat}
    (hk : k < C.tree.num) (hf : far k) : ρ ≤ 0.4 * euclid 3 x (C.tree.pts k) := by
  have h1 := hs.1 k hk hf
  rcases hs.2 with rfl | ⟨j, -, -, rfl⟩
  · simp at h1
  · have := hρ _ rfl
    have := WithTop.coe_le_coe.1 h1
    linarith

theorem sizeBound_of {I : VcInput} (h : I.Ok) {x : Nat → ℝ} {ρ : ℝ} (hρ : ∀ s : ℝ, sizeAt I.size x = some (s : WithTop ℝ) → ρ ≤ s) : SizeBound I x ρ := by
  intro t ht
  obtain ⟨c, hc, e, hmin⟩ := sizeAt_spec t (h.size t ht) x
  exact ⟨c, hc, hρ _ (by rw [ht, e]), hmin⟩

/-- The corner spheres: one at every sharp corner, none elsewhere, overlapping by no more than allowed. -/
structure CornersOk (I : VcInput) (D : Detected) (C : STree) : Prop where
  wf : C.Wf
  none : D.corners = [] → C.store.num = 0
  tree : D.corners ≠ [] → SphereTree C.store C.links
  at_ : ∀ i, i < C.store.num → ∃ p ∈ D.corners, (∀ d, d < 3 → C.store.pts i d = I.point p d) ∧ C.store.pts i 3 ≤ I.rmax ∧ PlaneGap I D (I.point p) (C.store.pts i 3) ∧
    LineGap I D (I.point p) (C.store.pts i 3) ∧ SizeBound I (I.point p) (C.store.pts i 3)
  all : ∀ p ∈ D.corners, ∃ i, i < C.store.num ∧ ∀ d, d < 3 → C.store.pts i d = I.point p d
  apart : ∀ i j, i < C.store.num → j < C.store.num → i ≠ j → C.store.pts i 3 + C.store.pts j 3 ≤ 0.8 * euclid 3 (C.store.pts i) (C.store.pts j)
  lip : LipschitzRadii C.store I.L

theorem cornerStage_spec {I : VcInput} {me mf : Nat} {D : Detected} (h : I.Ok) (hD : DetectedOk I me mf D) (he : 0 < me) (hf : 0 < mf) :
    ∃ C, cornerStage I D = some C ∧ CornersOk I D C := by
  unfold cornerStage
  by_cases h0 : D.corners = []
  · rw [if_neg (by simp [h0])]
    refine ⟨_, rfl, .inl rfl, fun _ => rfl, fun hn => absurd h0 hn, fun i hi => absurd hi (Nat.not_lt_zero i), fun p hp => by simp [h0] at hp, fun i j hi => absurd hi (Nat.not_lt_zero i),
      fun i j hi => absurd hi (Nat.not_lt_zero i)⟩
  · rw [if_pos (List.length_pos_iff.2 h0), cornerPoints_spec I _ fun p hp => ((hD.corner p).1 hp).1]
    have hne := hD.edges_ne h0
    obtain ⟨Q, ln, e, h1, h2, h3, h4, h5, -⟩ := C38_corner_spheres I.rb (I.queries D) I.rmin I.rmax I.L (D.corners.map I.point) h.L0 h.rmax fun x _ => by
      obtain ⟨s, es, hs, -⟩ := hD.plane h hf x
      obtain ⟨l, el, hl, -⟩ := hD.line h he hne x
      obtain ⟨z, ez, hz⟩ := h.sizeAt x
      exact ⟨s, l, z, es, el, ez, hs, hl, hz⟩
    simp only [e]
    have hT := h1 (by simpa using h0)
    refine ⟨_, rfl, .inr hT, fun hn => absurd hn h0, fun _ => hT, fun i hi => ?_, fun p hp => ?_, fun i j hi hj hij => (h4 i j hi hj hij).2, h5⟩
    · obtain ⟨x, hx, hd, -, g1, g2, g3, g4⟩ := h2 i hi
      obtain ⟨p, hp, rfl⟩ := List.mem_map.1 hx
      obtain ⟨s, es, -, hs⟩ := hD.plane h hf (I.point p)
      obtain ⟨l, el, -, hl⟩ := hD.line h he hne (I.point p)
      exact ⟨p, hp, hd, g1, fun k hk hk0 hkn => gap_of_nearest hs (fun t ht => g2 t (by rw [← ht]; exact es)) hk ⟨hk0, hkn⟩,
        fun k hk hk0 hkn => gap_of_nearest hl (fun t ht => g3 t (by rw [← ht]; exact el)) hk ⟨hk0, hkn⟩, sizeBound_of h g4⟩
    · obtain ⟨i, hi, hd | hd⟩ := h3 _ (List.mem_map_of_mem hp)
      · exact ⟨i, hi, hd⟩
      · rw [h.rmin] at hd
        exact absurd hd (not_lt.2 (euclid_nonneg _ _ _))

/-! ## Edge spheres -/

theorem edgeSetup_ok {I : VcInput} {me mf : Nat} {D : Detected} {C : STree} (h : I.Ok) (hD : DetectedOk I me mf D) (he : 0 < me) (hf : 0 < mf) (hne : D.edges ≠ [])
    (hC : SphereTree C.store C.links) {U : Nat → ℝ} (hU : ∀ k, 0 ≤ U k ∧ U k < 1) : (I.edgeSetup D C U).Ok := by
  refine ⟨I.edges_valid hD.ends, List.length_pos_iff.2 hne, hC, h.L0, h.L1, by norm_num [VcInput.edgeSetup], by norm_num [VcInput.edgeSetup], h.rmax, le_rfl, hU, fun x => ?_, fun x => ?_,
    h.sizeAt⟩
  · obtain ⟨s, es, hs, -⟩ := hD.plane h hf x; exact ⟨s, es, hs⟩
  · obtain ⟨s, es, hs, -⟩ := hD.line h he hne x; exact ⟨s, es, hs⟩

/-- There are sharp corners, and some point of a sharp edge is outside the corner spheres. -/
def EdgeOut (I : VcInput) (D : Detected) (C : STree) : Prop := D.corners ≠ [] ∧ ∃ e ∈ D.edges, ∃ x, InSegment (I.point e.1) (I.point e.2) x ∧ ¬ InBall C 1 x

theorem edgeSetup_ends (I : VcInput) (D : Detected) (C : STree) (U : Nat → ℝ) {f : Nat} {e : Nat × Nat} (he : D.edges[f]? = some e) :
    (I.edgeSetup D C U).S.point ((I.edgeSetup D C U).S.corner f 0) = I.point e.1 ∧ (I.edgeSetup D C U).S.point ((I.edgeSetup D C U).S.corner f 1) = I.point e.2 := by
  have hg : D.edges.getD f (0, 0) = e := by rw [List.getD_eq_getElem?_getD, he]; rfl
  constructor
  · show I.point (D.edges.getD f (0, 0)).1 = _
    rw [hg]
  · show I.point (D.edges.getD f (0, 0)).2 = _
    rw [hg]

/-- The edge spheres: every sharp edge is covered, every sphere is centred on the edge recorded for it and as small as the clouds, the corners and the prescribed size demand. -/
structure EdgesOk (I : VcInput) (D : Detected) (C : STree) (R : EdgeRun) : Prop where
  wf : R.tree.asSTree.Wf
  none : D.edges = [] → R.tree.num = 0
  ids : R.ids.length = R.tree.num
  covered : ∀ e ∈ D.edges, ∀ x, InSegment (I.point e.1) (I.point e.2) x → InBall R.tree.asSTree (Real.sqrt (1 - 0.5 ^ 2)) x ∨ InBall C 1 x
  on : ∀ (i f : Nat), R.ids[i]? = some f → ∃ e, D.edges[f]? = some e ∧ ∃ y, InSegment (I.point e.1) (I.point e.2) y ∧ (∀ d, d < 3 → R.tree.pts i d = y d) ∧ R.tree.pts i 3 ≤ I.rmax ∧
    PlaneGap I D y (R.tree.pts i 3) ∧ LineGap I D y (R.tree.pts i 3) ∧ SizeBound I y (R.tree.pts i 3) ∧
    ∀ k, k < C.store.num → 0 < euclid 3 y (C.store.pts k) → R.tree.pts i 3 ≤ 0.4 * euclid 3 y (C.store.pts k)
  lip : ∀ i j, i < R.tree.num → j < R.tree.num → euclid 3 (R.tree.pts i) (R.tree.pts j) < 2 * R.tree.pts i 3 →
    R.tree.pts i 3 ≤ R.tree.pts j 3 + I.L * euclid 3 (R.tree.pts i) (R.tree.pts j)
  lipschitz : 1 / 2 ≤ I.L → LipschitzRadii R.tree.spheres I.L

theorem EdgesOk.nil {I : VcInput} {D : Detected} {C : STree} (h0 : D.edges = []) : EdgesOk I D C EdgeRun.none :=
  ⟨.inl rfl, fun _ => rfl, rfl, fun e he => by simp [h0] at he, fun i f h => by simp [EdgeRun.none] at h, fun i j hi => absurd hi (Nat.not_lt_zero i), fun _ i j hi => absurd hi (Nat.not_lt_zero i)⟩

theorem EdgeResult.ok {I : VcInput} {me mf : Nat} {D : Detected} {C : STree} (h : I.Ok) (hD : DetectedOk I me mf D) (he : 0 < me) (hf : 0 < mf) (hne : D.edges ≠ []) {U : Nat → ℝ}
    {R : EdgeRun} (hR : EdgeResult (I.edgeSetup D C U) R) : EdgesOk I D C R := by
  refine ⟨.inr hR.tree, fun h0 => absurd h0 hne, hR.ids, fun e hm x hx => ?_, fun i f hi => ?_, hR.lip, hR.lipschitz⟩
  · obtain ⟨f, hf', rfl⟩ := List.getElem_of_mem hm
    obtain ⟨p0, p1⟩ := edgeSetup_ends I D C U (List.getElem?_eq_getElem hf')
    exact hR.covered f hf' x (by rw [p0, p1]; exact hx)
  · obtain ⟨hlt, y, hy, hd, hs⟩ := hR.on i f hi
    have hlt : f < D.edges.length := hlt
    have e0 := List.getElem?_eq_getElem hlt
    obtain ⟨p0, p1⟩ := edgeSetup_ends I D C U e0
    rw [p0, p1] at hy
    have hr0 : 0 ≤ R.tree.pts i 3 := hR.tree.nonneg i (by show i < R.tree.num; rw [← hR.ids]; exact (List.getElem?_eq_some_iff.1 hi).1)
    obtain ⟨s, es, hs0, hsn⟩ := hD.plane h hf y
    obtain ⟨l, el, hl0, hln⟩ := hD.line h he hne y
    have cut : ∀ {v : ℝ}, 0 ≤ v → R.tree.pts i 3 ≤ max v (I.edgeSetup D C U).rmin → R.tree.pts i 3 ≤ v := fun hv hm => by
      rwa [show (I.edgeSetup D C U).rmin = 0 from rfl, max_eq_left hv] at hm
    refine ⟨_, e0, y, hy, hd, cut h.rmax hs.rmax, fun k hk hk0 hkn => ?_, fun k hk hk0 hkn => ?_, sizeBound_of h hs.size, fun k hk hk0 => ?_⟩
    · refine gap_of_nearest hsn (fun t ht => cut ?_ (hs.surf t (by rw [← ht]; exact es))) hk ⟨hk0, hkn⟩
      rw [ht] at hs0; have := WithTop.coe_le_coe.1 hs0; positivity
    · refine gap_of_nearest hln (fun t ht => cut ?_ (hs.edge t (by rw [← ht]; exact el))) hk ⟨hk0, hkn⟩
      rw [ht] at hl0; have := WithTop.coe_le_coe.1 hl0; positivity
    · exact cut (mul_nonneg (by norm_num) hk0.le) (hs.corner k hk (.inl ⟨by show I.rmin < _; rw [h.rmin]; exact hk0, h.th0⟩))

/-- Two points of a chain of sharp edges. -/
def SharpChain (es : List (Nat × Nat)) : Nat → Nat → Prop := Relation.ReflTransGen fun a b => (a, b) ∈ es ∨ (b, a) ∈ es

/-- On the way from `p` to a point at distance `ρ` or more the chain passes distance `ρ`. -/
theorem chain_crossing (x : Nat → Nat → ℝ) {es : List (Nat × Nat)} {p q : Nat} (hj : SharpChain es p q) {ρ : ℝ} (h0 : 0 ≤ ρ) (hq : ρ < euclid 3 (x q) (x p)) :
    ∃ e ∈ es, ∃ y, InSegment (x e.1) (x e.2) y ∧ euclid 3 y (x p) = ρ := by
  induction hj with
  | refl => rw [euclid_self] at hq; linarith
  | @tail b c _ hbc ih =>
    by_cases hb : ρ < euclid 3 (x b) (x p)
    · exact ih hb
    · have hcont : Continuous fun t : ℝ => euclid 3 (fun d => (1 - t) * x b d + t * x c d) (x p) := by
        unfold euclid
        fun_prop
      have e0 : euclid 3 (fun d => (1 - (0 : ℝ)) * x b d + 0 * x c d) (x p) = euclid 3 (x b) (x p) := by simp
      have e1 : euclid 3 (fun d => (1 - (1 : ℝ)) * x b d + 1 * x c d) (x p) = euclid 3 (x c) (x p) := by simp
      obtain ⟨t, ht, et⟩ := intermediate_value_Icc (zero_le_one' ℝ) hcont.continuousOn (show ρ ∈ Set.Icc _ _ from ⟨by rw [e0]; linarith, by rw [e1]; linarith⟩)
      rcases hbc with hm | hm
      · exact ⟨_, hm, _, ⟨1 - t, t, by linarith [ht.2], ht.1, by ring, fun d => rfl⟩, et⟩
      · exact ⟨_, hm, _, ⟨t, 1 - t, ht.1, by linarith [ht.2], by ring, fun d => by ring⟩, et⟩

/-- **C93, two corners.** If two sharp corners are joined by sharp edges and no two corners are closer than 2e-7, some point of a sharp edge is outside the corner spheres. -/
theorem C93_chain (I : VcInput) (D : Detected) (C : STree) (hC : CornersOk I D C) (p q : Nat) (hp : p ∈ D.corners) (hq : q ∈ D.corners)
    (hj : SharpChain D.edges p q) (hpq : p ≠ q) (hfar : ∀ a ∈ D.corners, ∀ b ∈ D.corners, a ≠ b → 2e-7 ≤ euclid 3 (I.point a) (I.point b)) : EdgeOut I D C := by
  have hT := hC.tree (List.ne_nil_of_mem hp)
  obtain ⟨i, hi, hpi⟩ := hC.all p hp
  obtain ⟨j, hjn, hqj⟩ := hC.all q hq
  have ri := hT.nonneg i hi
  have eu : ∀ (y : Nat → ℝ), euclid 3 y (C.store.pts i) = euclid 3 y (I.point p) := fun y => euclid_congr (fun _ _ => rfl) hpi
  have hd : 2e-7 ≤ euclid 3 (I.point q) (I.point p) := hfar q hq p hp (Ne.symm hpq)
  have hij : i ≠ j := by
    rintro rfl
    have : euclid 3 (I.point q) (I.point p) = 0 := by
      rw [← eu, euclid_congr (fun d hd => (hqj d hd).symm) (fun _ _ => rfl), euclid_self]
    rw [this] at hd; norm_num at hd
  have hap := hC.apart j i hjn hi (Ne.symm hij)
  rw [eu, euclid_congr hqj (fun _ _ => rfl)] at hap
  have rj := hT.nonneg j hjn
  obtain ⟨e, he, y, hy, ey⟩ := chain_crossing I.point hj (ρ := (1 + 1e-8) * C.store.pts i 3 + 1e-8) (by positivity) (by norm_num at hap hd ⊢; nlinarith)
  refine ⟨List.ne_nil_of_mem hp, e, he, y, hy, ?_⟩
  rintro ⟨s, hs, hlt⟩
  by_cases hsi : s = i
  · subst hsi
    rw [eu, ey] at hlt
    exact lt_irrefl _ hlt
  · have h1 := hC.apart s i hs hi hsi
    have rs := hT.nonneg s hs
    have htri : euclid 3 (C.store.pts s) (C.store.pts i) ≤ euclid 3 y (C.store.pts s) + euclid 3 y (C.store.pts i) := by
      have := euclid_triangle 3 (C.store.pts s) y (C.store.pts i)
      rwa [euclid_comm 3 (C.store.pts s) y] at this
    rw [eu y, ey] at htri
    obtain ⟨a, ha, hsa, -⟩ := hC.at_ s hs
    rw [eu, euclid_congr hsa (fun _ _ => rfl)] at h1 htri
    by_cases hap : a = p
    · subst hap
      rw [euclid_self] at h1
      rw [euclid_congr (fun _ _ => rfl) hsa, ey] at hlt
      have : C.store.pts i 3 = 0 := by linarith
      have : C.store.pts s 3 = 0 := by linarith
      norm_num [*] at hlt
    · have h2 := hfar a ha p hp hap
      norm_num at h1 h2 htri hlt
      nlinarith

theorem edgeStage_spec {I : VcInput} {me mf : Nat} {D : Detected} {C : STree} (h : I.Ok) (hD : DetectedOk I me mf D) (he : 0 < me) (hf : 0 < mf) (hC : CornersOk I D C) (mps fuel : Nat) :
    (∀ R, edgeStage I D C mps fuel = some (some R) → EdgesOk I D C R) ∧ (D.edges = [] ∨ EdgeOut I D C → edgeStage I D C mps fuel ≠ none) := by
  unfold edgeStage
  by_cases h0 : D.edges = []
  · rw [if_neg (by simp [h0])]
    refine ⟨fun R hR => ?_, fun _ => by simp⟩
    obtain rfl := Option.some.inj (Option.some.inj hR)
    exact EdgesOk.nil h0
  · rw [if_pos (List.length_pos_iff.2 h0)]
    by_cases hc : D.corners = []
    · have hz := hC.none hc
      have hund : ∀ m k, edgeSpheres (I.edgeSetup D C fun k => I.U (2 * 100000 + 3 * 500000 + k)) m k = none ∨
          edgeSpheres (I.edgeSetup D C fun k => I.U (2 * 100000 + 3 * 500000 + k)) m k = some none := fun m k => by
        cases k with
        | zero => exact .inr rfl
        | succ k =>
          cases m with
          | zero =>
            obtain ⟨pool, ep, -, -⟩ := initialEdges_spec (distance 3) (I.edgeSetup D C fun k => I.U (2 * 100000 + 3 * 500000 + k)).S (I.edges_valid hD.ends) _ le_rfl
            refine .inr ?_
            rw [edgeSpheres, edgeSphereLoop]
            simp only [ep, edgeMps]
          | succ m => exact .inl (C81_no_corner_undefined _ (I.edges_valid hD.ends) (List.length_pos_iff.2 h0) (fun k => h.U _) hz m k)
      refine ⟨fun R hR => ?_, fun ho => ?_⟩
      · rcases hund mps fuel with hu | hu <;> rw [hu] at hR <;> simp at hR
      · rcases ho with ho | ⟨ho, -⟩
        · exact absurd ho h0
        · exact absurd hc ho
    · have hE := edgeSetup_ok (U := fun k => I.U (2 * 100000 + 3 * 500000 + k)) h hD he hf h0 (hC.tree hc) (fun k => h.U _)
      refine ⟨fun R hR => (C81_result _ hE mps fuel R hR).ok h hD he hf h0, fun ho => ?_⟩
      rcases ho with ho | ⟨-, e, hm, x, hx, hb⟩
      · exact absurd ho h0
      · obtain ⟨f, hf', rfl⟩ := List.getElem_of_mem hm
        obtain ⟨p0, p1⟩ := edgeSetup_ends I D C (fun k => I.U (2 * 100000 + 3 * 500000 + k)) (List.getElem?_eq_getElem hf')
        obtain ⟨o, eo, -⟩ := C81_edge_spheres _ hE ⟨f, hf', x, by rw [p0, p1]; exact hx, hb⟩ mps fuel
        rw [eo]; simp

/-! ## Surface spheres -/

theorem surfSetup_ok {I : VcInput} {me mf : Nat} {D : Detected} {C : STree} {R : EdgeRun} (h : I.Ok) (hD : DetectedOk I me mf D) (he : 0 < me) (hf : 0 < mf) (hC : CornersOk I D C)
    (hR : EdgesOk I D C R) : (I.surfSetup D C R).Ok := by
  refine ⟨h.surface.1, h.surface.2, hR.wf, hC.wf, h.L0, h.L1, by norm_num [VcInput.surfSetup], by norm_num [VcInput.surfSetup], h.rmax, le_rfl, h.T, h.Ut, fun x f hlt => ?_, fun x => ?_,
    h.sizeAt, h.hm⟩
  · obtain ⟨-, -, s, es, hs⟩ := C92_distances D.cloud hD.cloud.wf (by rw [hD.cloud.num]; exact hf) I.rmin I.th h.rmin.ge h.th0 h.th1 x (triNormal (I.tri f)).1
    refine ⟨s, ?_, hs.nonneg⟩
    show faceDistance I D x f = some s
    unfold faceDistance
    rw [hD.normals]
    simp only [I.normals_get hlt, es]
  · show ∃ s, lineDistance I D x = some s ∧ 0 ≤ s
    unfold lineDistance
    by_cases h0 : D.lines.tree.num > 0
    · rw [if_pos h0]
      have hne : D.edges ≠ [] := fun hz => by
        have hl := hD.lines
        rw [if_pos hz] at hl
        rw [hl] at h0
        exact absurd h0 (Nat.lt_irrefl 0)
      obtain ⟨s, es, hs, -⟩ := hD.line h he hne x
      exact ⟨s, es, hs⟩
    · rw [if_neg h0]; exact ⟨⊤, rfl, le_top⟩

/-- The surface spheres and the seeds: every face is covered, every sphere is centred on the face recorded for it, outside the corner spheres, and as small as the clouds, the corners and
the prescribed size demand; the seeds of the interior side form a watertight surface of triples of spheres. -/
structure SurfaceOk (I : VcInput) (D : Detected) (C : STree) (R : EdgeRun) (S : SurfRun) (up lo : SeedTree) : Prop where
  tree : SphereTree S.tree.spheres S.tree.links
  ids : S.ids.length = S.tree.num
  covered : ∀ f, f < I.faces.length → ∀ x, InTriangle (I.point (I.surface.corner f 0)) (I.point (I.surface.corner f 1)) (I.point (I.surface.corner f 2)) x →
    InBall S.tree.asSTree (Real.sqrt (1 - 0.4 ^ 2)) x ∨ InBall R.tree.asSTree 1 x ∨ InBall C 1 x
  on : ∀ (i f : Nat), S.ids[i]? = some f → f < I.faces.length ∧ ∃ y,
    InTriangle (I.point (I.surface.corner f 0)) (I.point (I.surface.corner f 1)) (I.point (I.surface.corner f 2)) y ∧ (∀ d, d < 3 → S.tree.pts i d = y d) ∧ S.tree.pts i 3 ≤ I.rmax ∧
    FaceGap I D y (triNormal (I.tri f)).1 (S.tree.pts i 3) ∧ LineGap I D y (S.tree.pts i 3) ∧ SizeBound I y (S.tree.pts i 3) ∧
    ∀ k, k < C.store.num → C.store.pts k 3 ≤ euclid 3 y (C.store.pts k) ∧ (0 < euclid 3 y (C.store.pts k) → S.tree.pts i 3 ≤ 0.4 * euclid 3 y (C.store.pts k))
  lip : ∀ i j, i < S.tree.num → j < S.tree.num → euclid 3 (S.tree.pts i) (S.tree.pts j) < 2 * S.tree.pts i 3 →
    S.tree.pts i 3 ≤ S.tree.pts j 3 + I.L * euclid 3 (S.tree.pts i) (S.tree.pts j)
  lipschitz : 1 / 2 ≤ I.L → LipschitzRadii S.tree.spheres I.L
  spheres : ∀ a ∈ lo.attr, a.Ok (S.tree.num + R.tree.num + C.store.num)
  watertight : Watertight S.tree.num (lo.attr.map fun a => [a.s1, a.s2, a.s3])

theorem SurfResult.ok {I : VcInput} {me mf : Nat} {D : Detected} {C : STree} {R : EdgeRun} (h : I.Ok) (hD : DetectedOk I me mf D) (he : 0 < me) (hf : 0 < mf) (hC : CornersOk I D C)
    {S : SurfRun} {up lo : SeedTree} (hS : SurfResult (I.surfSetup D C R) S up lo) : SurfaceOk I D C R S up lo := by
  refine ⟨hS.tree, hS.ids, hS.covered, fun i f hi => ?_, hS.lip, hS.lipschitz, hS.spheres, hS.watertight⟩
  obtain ⟨hlt, y, hy, hd, hs, -, hout⟩ := hS.on i f hi
  have hlt : f < I.faces.length := hlt
  have cut : ∀ {v : ℝ}, 0 ≤ v → S.tree.pts i 3 ≤ max v (I.surfSetup D C R).rmin → S.tree.pts i 3 ≤ v := fun hv hm => by
    rwa [show (I.surfSetup D C R).rmin = 0 from rfl, max_eq_left hv] at hm
  refine ⟨hlt, y, hy, hd, cut h.rmax hs.rmax, fun k hk hk0 hkn => ?_, fun k hk hk0 hkn => ?_, sizeBound_of h fun t ht => cut ?_ (hs.size t ht), fun k hk => ⟨hout hC.lip k hk, fun hk0 => ?_⟩⟩
  · obtain ⟨-, -, s, es, hsn⟩ := C92_distances D.cloud hD.cloud.wf (by rw [hD.cloud.num]; exact hf) I.rmin I.th h.rmin.ge h.th0 h.th1 y (triNormal (I.tri f)).1
    refine gap_of_nearest hsn (fun t ht => cut ?_ (hs.surf t ?_)) hk ⟨hk0, hkn⟩
    · have := hsn.nonneg; rw [ht] at this; have := WithTop.coe_le_coe.1 this; positivity
    · show faceDistance I D y f = _
      unfold faceDistance
      rw [hD.normals]
      simp only [I.normals_get hlt, es, ht]
  · have hne : D.edges ≠ [] := fun hz => by
      have hl := hD.lines
      rw [if_pos hz] at hl
      rw [hl] at hk
      exact absurd hk (Nat.not_lt_zero k)
    obtain ⟨l, el, hl0, hln⟩ := hD.line h he hne y
    refine gap_of_nearest hln (fun t ht => cut ?_ (hs.cloud t ?_)) hk ⟨hk0, hkn⟩
    · rw [ht] at hl0; have := WithTop.coe_le_coe.1 hl0; positivity
    · show lineDistance I D y = _
      unfold lineDistance
      rw [if_pos (by omega), el, ht]
  · obtain ⟨s, es, hs0⟩ := h.sizeAt y
    rw [show sizeAt I.size y = _ from ht] at es
    obtain rfl := Option.some.inj es
    exact WithTop.coe_le_coe.1 hs0
  · exact cut (mul_nonneg (by norm_num) hk0.le) (hs.corner k hk (.inl ⟨by show I.rmin < _; rw [h.rmin]; exact hk0, h.th0⟩))

/-! ## The property -/

theorem detect_spec {I : VcInput} (h : I.Ok) : ∃ D, detect I = some D ∧ DetectedOk I 100000 500000 D := by
  obtain ⟨D, e, hD⟩ := detectClean_spec h 100000 500000
  exact ⟨D, by unfold detect; rw [if_pos h.rmin]; exact e, hD⟩

/-- **C93, first stages.** For a clean input the detection and the corner spheres are defined. -/
theorem C93_corners (I : VcInput) (h : I.Ok) : ∃ D C, detect I = some D ∧ DetectedOk I 100000 500000 D ∧ cornerStage I D = some C ∧ CornersOk I D C := by
  obtain ⟨D, e, hD⟩ := detect_spec h
  obtain ⟨C, e', hC⟩ := cornerStage_spec h hD (by norm_num) (by norm_num)
  exact ⟨D, C, e, hD, e', hC⟩

/-- **C93, edges.** Without sharp edges, or with sharp corners and a point of a sharp edge outside their spheres, the edge spheres are defined as well. -/
theorem C93_edges (I : VcInput) (h : I.Ok) (D : Detected) (C : STree) (eD : detect I = some D) (eC : cornerStage I D = some C) (ho : D.edges = [] ∨ EdgeOut I D C) (mps fuel : Nat) :
    edgeStage I D C mps fuel ≠ none := by
  obtain ⟨D', C', e1, hD, e2, hC⟩ := C93_corners I h
  obtain rfl := Option.some.inj (e1.symm.trans eD)
  obtain rfl := Option.some.inj (e2.symm.trans eC)
  exact (edgeStage_spec h hD (by norm_num) (by norm_num) hC mps fuel).2 ho

/-- **C93, result.** Whenever the sampling of a clean input ends, its corner, edge and surface spheres are the ones of this input. -/
theorem C93_sampled (I : VcInput) (h : I.Ok) (mps fuel : Nat) (R : Sampled) (hr : sampleModel I mps fuel = some (some R)) :
    detect I = some R.found ∧ DetectedOk I 100000 500000 R.found ∧ CornersOk I R.found R.corner ∧ EdgesOk I R.found R.corner R.edge ∧
      SurfaceOk I R.found R.corner R.edge R.surf R.up R.lo := by
  obtain ⟨D, C, e1, hD, e2, hC⟩ := C93_corners I h
  unfold sampleModel at hr
  simp only [e1, e2] at hr
  cases eE : edgeStage I D C mps fuel with
  | none => simp [eE] at hr
  | some o =>
    cases o with
    | none => simp [eE] at hr
    | some R0 =>
      have hR0 := (edgeStage_spec h hD (by norm_num) (by norm_num) hC mps fuel).1 R0 eE
      simp only [eE] at hr
      cases eS : surfaceSpheres (I.surfSetup D C R0) mps fuel with
      | none => simp [eS] at hr
      | some o =>
        cases o with
        | none => simp [eS] at hr
        | some S =>
          obtain ⟨S, up, lo⟩ := S
          simp only [eS] at hr
          obtain rfl := Option.some.inj (Option.some.inj hr)
          have hS := C82_surface_spheres _ (surfSetup_ok h hD (by norm_num) (by norm_num) hC hR0) mps fuel S up lo eS
          exact ⟨e1, hD, hC, hR0, hS.ok h hD (by norm_num) (by norm_num) hC⟩

/-- **C93, loops.** A clean input with sharp edges but without sharp corners (a cylinder, say) makes the sampling undefined. -/
theorem C93_loops_undefined (I : VcInput) (h : I.Ok) (D : Detected) (eD : detect I = some D) (he : D.edges ≠ []) (hc : D.corners = []) (mps fuel : Nat) :
    sampleModel I (mps + 1) (fuel + 1) = none := by
  obtain ⟨D', C, e1, hD, e2, hC⟩ := C93_corners I h
  obtain rfl := Option.some.inj (e1.symm.trans eD)
  unfold sampleModel
  simp only [e1, e2]
  have : edgeStage I D' C (mps + 1) (fuel + 1) = none := by
    unfold edgeStage
    rw [if_pos (List.length_pos_iff.2 he)]
    exact C81_no_corner_undefined _ (I.edges_valid hD.ends) (List.length_pos_iff.2 he) (fun k => h.U _) (hC.none hc) mps fuel
  rw [this]

/-! ## A minimum radius -/

/-- Without the normals no dart outside the spheres can be given a radius: the darts that are left are all covered. -/
theorem sizeDarts_no_surf {E : SurfSetup} (hs : ∀ x f, E.surf x f = none) (ds : List Draw) : ∀ (prev : List Draw) (r : SurfRun) (ds' : List Draw) (r' : SurfRun),
    (∀ d ∈ prev, d.covered = true) → sizeDarts E prev ds r = some (ds', r') → (∀ d ∈ ds', d.covered = true) ∧ r' = r := by
  induction ds with
  | nil =>
    intro prev r ds' r' hp e
    rw [sizeDarts] at e
    obtain ⟨rfl, rfl⟩ := Prod.mk.inj (Option.some.inj e)
    exact ⟨hp, rfl⟩
  | cons d ds ih =>
    intro prev r ds' r' hp e
    rw [sizeDarts] at e
    by_cases hc : d.covered = true
    · rw [if_pos hc] at e
      refine ih _ r ds' r' (fun d' hd' => ?_) e
      rcases List.mem_append.1 hd' with h | h
      · exact hp d' h
      · rw [List.mem_singleton.1 h]; exact hc
    · rw [if_neg hc] at e
      by_cases hh : hitBy E prev d.sphere = true
      · rw [if_pos hh] at e
        refine ih _ r ds' r' (fun d' hd' => ?_) e
        rcases List.mem_append.1 hd' with h | h
        · exact hp d' h
        · rw [List.mem_singleton.1 h]
      · rw [if_neg hh] at e
        have : surfRadius E r prev.length d.sphere d.face = none := by unfold surfRadius; rw [hs]
        rw [this] at e
        simp at e

theorem addDarts_tree {E : SurfSetup} (ds : List Draw) : ∀ (r : SurfRun) (m : Nat) (r' : SurfRun) (m' : Nat), (∀ d ∈ ds, d.covered = true) → addDarts E ds r m = some (r', m') → r' = r := by
  induction ds with
  | nil =>
    intro r m r' m' _ e
    rw [addDarts] at e
    exact (Prod.mk.inj (Option.some.inj e)).1.symm
  | cons d ds ih =>
    intro r m r' m' hc e
    rw [addDarts, if_pos (hc d (by simp))] at e
    by_cases hm : m + 1 ≥ 100
    · rw [if_pos hm] at e
      exact (Prod.mk.inj (Option.some.inj e)).1.symm
    · rw [if_neg hm] at e
      exact ih r _ r' m' (fun d' hd' => hc d' (by simp [hd'])) e

theorem surfRound_no_surf {E : SurfSetup} (hs : ∀ x f, E.surf x f = none) {level : Nat} {pool : List (PoolEntry ℝ)} {r r' : SurfRun} {m m' : Nat}
    (e : surfRound E level pool r m = some (r', m')) : r'.tree = r.tree := by
  unfold surfRound at e
  cases e1 : drawDarts E level pool r E.T with
  | none => simp [e1] at e
  | some ds =>
    simp only [e1] at e
    cases e2 : sizeDarts E [] ds r with
    | none => simp [e2] at e
    | some q =>
      obtain ⟨ds', r1⟩ := q
      simp only [e2] at e
      obtain ⟨h1, rfl⟩ := sizeDarts_no_surf hs ds [] r ds' r1 (by simp) e2
      rw [addDarts_tree ds' _ m r' m' h1 e]

theorem surfMps_no_surf {E : SurfSetup} (hs : ∀ x f, E.surf x f = none) (mps : Nat) : ∀ (level : Nat) (pool : List (PoolEntry ℝ)) (m : Nat) (r r' : SurfRun),
    surfMps E mps level pool m r = some (some r') → r'.tree = r.tree := by
  induction mps with
  | zero => intro level pool m r r' e; simp [surfMps] at e
  | succ n ih =>
    intro level pool m r r' e
    rw [surfMps] at e
    cases e1 : surfRound E level pool r m with
    | none => simp [e1] at e
    | some q =>
      obtain ⟨r1, m1⟩ := q
      have ht := surfRound_no_surf hs e1
      simp only [e1] at e
      by_cases hm : m1 ≥ 100
      · rw [if_pos hm] at e
        cases e2 : refineSeq (uncoveredChildren midpoint3 area3 (coveredFace r1.tree.asSTree E.edge E.corner E.L E.ratio) E.S level) pool with
        | none => simp [e2] at e
        | some new =>
          simp only [e2] at e
          by_cases hn : new.length = 0
          · rw [if_pos hn] at e
            rw [← Option.some.inj (Option.some.inj e)]
            exact ht
          · rw [if_neg hn] at e
            exact (ih _ _ _ _ _ e).trans ht
      · rw [if_neg hm] at e
        exact (ih _ _ _ _ _ e).trans ht

theorem surfPatches_no_surf {E : SurfSetup} (hs : ∀ x f, E.surf x f = none) (mps : Nat) (ps : List (Nat × List Nat)) : ∀ r r' : SurfRun,
    surfPatches E mps ps r = some (some r') → r'.tree = r.tree := by
  induction ps with
  | nil => intro r r' e; rw [surfPatches] at e; rw [← Option.some.inj (Option.some.inj e)]
  | cons p ps ih =>
    intro r r' e
    rw [surfPatches] at e
    cases e1 : initialPool area3 E.S p.2 with
    | none => simp [e1] at e
    | some pool =>
      simp only [e1] at e
      cases e2 : surfMps E mps 0 pool 0 r with
      | none => simp [e2] at e
      | some o =>
        cases o with
        | none => simp [e2] at e
        | some r1 =>
          simp only [e2] at e
          exact (ih r1 r' e).trans (surfMps_no_surf hs mps 0 pool 0 r r1 e2)

theorem surfCheck_empty (E : SurfSetup) (r : SurfRun) (h : r.tree.num = 0) : surfCheck E r = none := by
  have hfin : ∀ r : SurfRun, r.tree.num = 0 → surfFinish E r = none := fun r h => by
    unfold surfFinish
    rw [C27_empty_undefined E.L r.tree.spheres r.tree.links h]
  unfold surfCheck
  by_cases ht : E.tol > 0
  · rw [if_pos ht, h]
    exact hfin _ h
  · rw [if_neg ht]; exact hfin _ h

theorem surfaceSpheres_no_surf {E : SurfSetup} (hs : ∀ x f, E.surf x f = none) (mps fuel : Nat) (o : SurfRun × SeedTree × SeedTree) : surfaceSpheres E mps fuel ≠ some (some o) := by
  intro e
  cases fuel with
  | zero => simp [surfaceSpheres, surfLoop] at e
  | succ fuel =>
    rw [surfaceSpheres, surfLoop] at e
    cases e0 : patchLoop E.S.numFaces 100 0 100 with
    | none => simp [e0] at e
    | some ps =>
      simp only [e0] at e
      cases e1 : surfPatches E mps ps ⟨SmartTree.empty (fun _ _ => 0) id id, [], fun _ => none, 0, 0⟩ with
      | none => simp [e1] at e
      | some o' =>
        cases o' with
        | none => simp [e1] at e
        | some r1 =>
          simp only [e1] at e
          rw [surfCheck_empty E r1 (by rw [surfPatches_no_surf hs mps ps _ r1 e1]; rfl)] at e
          simp at e

/-- **C94.** With `R_MIN` other than zero the sampling never ends with a result, whatever the detection finds: the normals of the faces are not there when a surface sphere is to be
given its radius, so that none is ever added, and the end of the stage reads the empty tree. -/
theorem C94_minimum_radius_bug (I : VcInput) (h : I.rmin ≠ 0) (mps fuel : Nat) (R : Sampled) : sampleModel I mps fuel ≠ some (some R) := by
  intro hr
  unfold sampleModel at hr
  cases e0 : detect I with
  | none => simp [e0] at hr
  | some D =>
    have hn : D.normals = none := by
      unfold detect at e0
      rw [if_neg h] at e0
      cases e1 : I.other with
      | none => simp [e1] at e0
      | some q =>
        obtain ⟨es, cs, lines, cloud⟩ := q
        simp only [e1] at e0
        rw [← Option.some.inj e0]
    simp only [e0] at hr
    cases e2 : cornerStage I D with
    | none => simp [e2] at hr
    | some C =>
      simp only [e2] at hr
      cases e3 : edgeStage I D C mps fuel with
      | none => simp [e3] at hr
      | some o =>
        cases o with
        | none => simp [e3] at hr
        | some R0 =>
          simp only [e3] at hr
          have hs : ∀ x f, (I.surfSetup D C R0).surf x f = none := fun x f => by
            show faceDistance I D x f = none
            unfold faceDistance
            rw [hn]
          cases eS : surfaceSpheres (I.surfSetup D C R0) mps fuel with
          | none => simp [eS] at hr
          | some o =>
            cases o with
            | none => simp [eS] at hr
            | some S => exact surfaceSpheres_no_surf hs mps fuel S eS

/-- **C94, smooth models.** If the detection finds no sharp features the first dart reads through the null pointer. -/
theorem C94_smooth_undefined (I : VcInput) (h : I.rmin ≠ 0) (hm : TriMesh I.num I.faces) (hne : I.faces ≠ []) (hT : 0 < I.T) (hU : ∀ t k, 0 ≤ I.Ut t k ∧ I.Ut t k < 1) (lines cloud : Cloud)
    (ho : I.other = some ([], [], lines, cloud)) (mps fuel : Nat) : sampleModel I (mps + 1) (fuel + 1) = none := by
  have hS : I.surface.Valid 3 := fun f hf i hi => by
    have hf : f < I.faces.length := hf
    have hm := hm _ (List.getElem_mem hf)
    show (I.faces.getD f []).getD i 0 < I.num
    rw [getD_lt hf, getD_lt (l := I.faces[f]) (by omega)]
    exact hm.2 _ (List.getElem_mem _)
  have hd : detect I = some ⟨none, none, [], [], lines, cloud⟩ := by unfold detect; rw [if_neg h, ho]
  set D : Detected := ⟨none, none, [], [], lines, cloud⟩ with hD
  have hc : cornerStage I D = some emptyTree := by unfold cornerStage; rw [if_neg (by simp [hD])]
  have he : edgeStage I D emptyTree (mps + 1) (fuel + 1) = some (some EdgeRun.none) := by unfold edgeStage; rw [if_neg (by simp [hD])]
  set E := I.surfSetup D emptyTree EdgeRun.none with hE
  have hs : ∀ x f, E.surf x f = none := fun x f => rfl
  have hS0 : 0 < E.S.numFaces := List.length_pos_iff.2 hne
  obtain ⟨ps, ep, hps, hall⟩ := patches_all E.S.numFaces hS0
  have key : surfaceSpheres E (mps + 1) (fuel + 1) = none := by
    rw [surfaceSpheres, surfLoop]
    simp only [ep]
    have : surfPatches E (mps + 1) ps ⟨SmartTree.empty (fun _ _ => 0) id id, [], fun _ => none, 0, 0⟩ = none := by
      cases ps with
      | nil =>
        obtain ⟨p, hp, -⟩ := hall 0 hS0
        simp at hp
      | cons p ps =>
        obtain ⟨hpn, hpf⟩ := hps p (by simp)
        obtain ⟨pool, epl, dp, qp⟩ := initialPool_spec area3 E.S hS p.2 hpf
        have hpne : pool ≠ [] := by
          rintro rfl
          obtain ⟨f, hf⟩ := List.exists_mem_of_ne_nil _ hpn
          obtain ⟨e, he, -⟩ := qp f hf _ ⟨1, 0, 0, by norm_num, le_rfl, le_rfl, by norm_num, fun d => rfl⟩
          simp at he
        have hdraw : ∀ n, ∃ ds, drawDarts E 0 pool ⟨SmartTree.empty (fun _ _ => 0) id id, [], fun _ => none, 0, 0⟩ n = some ds ∧ ds.length = n ∧ ∀ d ∈ ds, d.covered = false := by
          intro n
          induction n with
          | zero => exact ⟨[], rfl, rfl, by simp⟩
          | succ n ih =>
            obtain ⟨ds, e, hl, hcv⟩ := ih
            obtain ⟨x, f, ex, -, -⟩ := C69_dart_on_its_face E.S 0 pool hpne dp (poolTable pool) (E.U n (3 * 0)) (fun k => E.U n (3 * 0 + k)) (fun k _ _ => hU n _)
            refine ⟨ds ++ [⟨x, f, false⟩], ?_, by simp [hl], ?_⟩
            · rw [drawDarts]
              simp only [e, ex]
              rfl
            · intro d hd
              rcases List.mem_append.1 hd with hd | hd
              · exact hcv d hd
              · rw [List.mem_singleton.1 hd]
        obtain ⟨ds, e, hl, hcv⟩ := hdraw E.T
        have hround : surfRound E 0 pool ⟨SmartTree.empty (fun _ _ => 0) id id, [], fun _ => none, 0, 0⟩ 0 = none := by
          unfold surfRound
          simp only [e]
          cases ds with
          | nil => have hT : 0 < E.T := hT; rw [← hl] at hT; simp at hT
          | cons d ds =>
            have : sizeDarts E [] (d :: ds) ⟨SmartTree.empty (fun _ _ => 0) id id, [], fun _ => none, 0, 0⟩ = none := by
              rw [sizeDarts, if_neg (by rw [hcv d (by simp)]; simp), if_neg (by simp [hitBy])]
              rfl
            rw [this]
        rw [surfPatches]
        simp only [epl]
        rw [surfMps, hround]
    rw [this]
  unfold sampleModel
  simp only [hd, hc, he]
  rw [← hE, key]

/-- **C94, destructor.** The destructor frees one array per face after a clean input; with `R_MIN` other than zero it reads the unwritten number of faces. -/
theorem C94_destructor (I : VcInput) (D : Detected) (e : detect I = some D) : (I.Ok → freeNormals D = some I.faces.length) ∧ (I.rmin ≠ 0 → freeNormals D = none) := by
  constructor
  · intro h
    obtain ⟨D', e', hD⟩ := detect_spec h
    obtain rfl := Option.some.inj (e'.symm.trans e)
    unfold freeNormals
    rw [hD.numFaces, hD.normals]
    simp [I.normals_length]
  · intro h
    unfold detect at e
    rw [if_neg h] at e
    cases e1 : I.other with
    | none => simp [e1] at e
    | some q =>
      obtain ⟨es, cs, lines, cloud⟩ := q
      simp only [e1] at e
      rw [← Option.some.inj e]
      rfl

end VoroCrust
