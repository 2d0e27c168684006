import Verif.Model.Clouds
import Verif.Props.SurfaceSphereCases

/-! # Property C92: the point clouds of a clean model and the distances taken from them -/

namespace VoroCrust

/-! ## Building a cloud -/

/-- A cloud of `n` points; `on k x v f` is what is known about the `k`-th point, its direction and its face or edge. -/
structure CloudOk (C : Cloud) (n : Nat) (on : Nat → (Nat → ℝ) → V3 → Nat → Prop) : Prop where
  wf : C.tree.asSTree.Wf
  cap : C.tree.num = 0 ∨ C.tree.num < C.tree.cap
  num : C.tree.num = n
  dir : C.dir.length = n
  ids : C.ids.length = n
  on : ∀ (k : Nat) (v : V3) (f : Nat), C.dir[k]? = some v → C.ids[k]? = some f → on k (C.tree.pts k) v f

theorem cloudOk_none (on : Nat → (Nat → ℝ) → V3 → Nat → Prop) : CloudOk Cloud.none 0 on :=
  ⟨.inl rfl, .inl rfl, rfl, rfl, rfl, fun k v f h => by simp [Cloud.none] at h⟩

theorem snoc_cases {α : Type} {l : List α} {a b : α} {k : Nat} (h : (l ++ [a])[k]? = some b) : (k < l.length ∧ l[k]? = some b) ∨ (k = l.length ∧ b = a) := by
  rcases Nat.lt_or_ge k l.length with hk | hk
  · rw [List.getElem?_append_left hk] at h; exact .inl ⟨hk, h⟩
  · rw [List.getElem?_append_right hk] at h
    have : k = l.length := by
      by_contra hne
      rw [List.getElem?_eq_none (by simp; omega)] at h
      simp at h
    subst this
    simp at h
    exact .inr ⟨rfl, h.symm⟩

theorem CloudOk.add {C : Cloud} {n : Nat} {on : Nat → (Nat → ℝ) → V3 → Nat → Prop} (h : CloudOk C n on) (rb : Nat → Nat → Bool) {x : Nat → ℝ} {v : V3} {f : Nat}
    (hx : on n (cloudPoint x) v f) : ∃ C', addCloud rb C x v f = some C' ∧ CloudOk C' (n + 1) on := by
  obtain ⟨t, et, ht, hcap, hnum, hold, hnew⟩ := SmartTree.add_sphere h.wf h.cap rb (cloudPoint x) (by simp [cloudPoint, upd])
  refine ⟨⟨t, C.dir ++ [v], C.ids ++ [f]⟩, by unfold addCloud; simp only [et], .inr ht, .inr hcap, by rw [hnum, h.num], by simp [h.dir], by simp [h.ids], fun k w g hw hg => ?_⟩
  rcases snoc_cases hw with ⟨hk, hw⟩ | ⟨rfl, rfl⟩
  · rcases snoc_cases hg with ⟨hk', hg⟩ | ⟨hk', -⟩
    · show on k (t.pts k) w g
      rw [hold k (by rw [h.num, ← h.dir]; exact hk)]
      exact h.on k w g hw hg
    · have := h.dir; have := h.ids; omega
  · rcases snoc_cases hg with ⟨hk', -⟩ | ⟨-, rfl⟩
    · have := h.dir; have := h.ids; omega
    · show on _ (t.pts C.dir.length) w g
      rw [show C.dir.length = C.tree.num by rw [h.dir, h.num], hnew, h.num]
      exact hx

/-! ## Which edge or face is drawn -/

/-- The draw `u` falls in the share of cell `i` among `n` cells with the given weights. -/
def InShare (n : Nat) (w : Nat → ℝ) (u : ℝ) (i : Nat) : Prop :=
  (∑ j ∈ Finset.range i, w j) ≤ u * ∑ j ∈ Finset.range n, w j ∧ u * (∑ j ∈ Finset.range n, w j) ≤ ∑ j ∈ Finset.range (i + 1), w j

theorem pick_share (n : Nat) (hn : 0 < n) (w : Nat → ℝ) (hw : ∀ i, i < n → 0 ≤ w i) (u : ℝ) (hu : 0 ≤ u ∧ u < 1) :
    ∃ i, tablePick n (fun i => realLt u (weightTable n w i)) (fun i => realLt (weightTable n w i) u) n = some i ∧ i < n ∧ InShare n w u i := by
  have hsum : 0 ≤ ∑ j ∈ Finset.range n, w j := Finset.sum_nonneg fun i hi => hw i (Finset.mem_range.1 hi)
  rcases hsum.lt_or_eq with hpos | hz
  · obtain ⟨i, e, hi, a, b⟩ := C35_weighted_draw n hn w hw hpos u hu n le_rfl
    exact ⟨i, e, hi, (div_le_iff₀ hpos).1 a, (le_div_iff₀ hpos).1 b⟩
  · obtain ⟨i, e, hi⟩ := C35_search_in_range n hn (fun i => realLt u (weightTable n w i)) (fun i => realLt (weightTable n w i) u) n le_rfl
    have h0 : ∀ j, j < n → w j = 0 := fun j hj => (Finset.sum_eq_zero_iff_of_nonneg fun i hi => hw i (Finset.mem_range.1 hi)).1 hz.symm j (Finset.mem_range.2 hj)
    refine ⟨i, e, hi, ?_, ?_⟩
    · rw [← hz, mul_zero, Finset.sum_eq_zero fun j hj => h0 j (by have := Finset.mem_range.1 hj; omega)]
    · rw [← hz, mul_zero]
      exact Finset.sum_nonneg fun j hj => hw j (by have := Finset.mem_range.1 hj; omega)

/-- The lengths of the edges. -/
noncomputable def edgeLength (S : PoolSurface (Nat → ℝ)) (e : Nat) : ℝ := euclid 3 (S.point (S.corner e 0)) (S.point (S.corner e 1))

theorem edgeTable_eq (S : PoolSurface (Nat → ℝ)) : edgeTable S = weightTable S.numFaces (edgeLength S) := by
  unfold edgeTable edgeLength; simp only [distance_eq]

/-- The areas of the faces. -/
noncomputable def triFaceArea (S : PoolSurface (Nat → ℝ)) (f : Nat) : ℝ := area3 (S.point (S.corner f 0)) (S.point (S.corner f 1)) (S.point (S.corner f 2))

theorem triFaceArea_nonneg (S : PoolSurface (Nat → ℝ)) (f : Nat) : 0 ≤ triFaceArea S f := by
  unfold triFaceArea area3 triArea
  exact mul_nonneg (by norm_num) (Real.sqrt_nonneg _)

/-! ## Sharp edges -/

/-- What a point of the cloud of the sharp edges is: drawn from edge `e`, whose share of the total length contains the first number, at the fraction given by the second one; the
direction has unit length and points along the edge, if the edge is not shorter than 1e-10. -/
structure OnEdge (S : PoolSurface (Nat → ℝ)) (u v : ℝ) (x : Nat → ℝ) (w : V3) (e : Nat) : Prop where
  lt : e < S.numFaces
  share : InShare S.numFaces (edgeLength S) u e
  at_ : ∀ d, d < 3 → x d = S.point (S.corner e 0) d + v * (S.point (S.corner e 1) d - S.point (S.corner e 0) d)
  one : x 3 = 1
  dir : 1e-10 ≤ edgeLength S e → dot3 w w = 1 ∧ ∃ s : ℝ, 0 < s ∧ ∀ d : Fin 3, w d = s * (S.point (S.corner e 1) d.val - S.point (S.corner e 0) d.val)

theorem len3_edge (S : PoolSurface (Nat → ℝ)) (e : Nat) :
    len3 (fun d => toV3 (S.point (S.corner e 1)) d - toV3 (S.point (S.corner e 0)) d) = edgeLength S e := by
  unfold edgeLength euclid len3 dot3 toV3
  congr 1
  simp [Finset.sum_range_succ]
  ring

theorem edgeCloudPoint_spec {S : PoolSurface (Nat → ℝ)} (hS : S.Valid 2) (h0 : 0 < S.numFaces) {u v : ℝ} (hu : 0 ≤ u ∧ u < 1) :
    ∃ x w e, edgeCloudPoint S u v = some (x, w, e) ∧ OnEdge S u v (cloudPoint x) w e := by
  obtain ⟨e, ep, he, hs⟩ := pick_share S.numFaces h0 (edgeLength S) (fun i _ => euclid_nonneg _ _ _) u hu
  unfold edgeCloudPoint
  rw [edgeTable_eq, ep]
  have a0 : S.at e 0 = some (S.point (S.corner e 0)) := by unfold PoolSurface.at; rw [if_pos ⟨he, hS e he 0 (by omega)⟩]
  have a1 : S.at e 1 = some (S.point (S.corner e 1)) := by unfold PoolSurface.at; rw [if_pos ⟨he, hS e he 1 (by omega)⟩]
  simp only [a0, a1]
  refine ⟨_, _, _, rfl, he, hs, fun d hd => by simp [cloudPoint, upd, show d ≠ 3 by omega], by simp [cloudPoint, upd], fun hl => ?_⟩
  have hpos : 0 < edgeLength S e := lt_of_lt_of_le (by norm_num) hl
  rcases normalize3_spec (fun d => toV3 (S.point (S.corner e 1)) d - toV3 (S.point (S.corner e 0)) d) with ⟨-, -, h⟩ | ⟨-, h⟩
  · rw [len3_edge] at h
    rw [h]
    refine ⟨?_, 1 / edgeLength S e, by positivity, fun d => rfl⟩
    rw [dot3_smul_smul]
    have : dot3 (fun d => toV3 (S.point (S.corner e 1)) d - toV3 (S.point (S.corner e 0)) d) (fun d => toV3 (S.point (S.corner e 1)) d - toV3 (S.point (S.corner e 0)) d) = edgeLength S e ^ 2 := by
      rw [← len3_edge]; unfold len3; rw [Real.sq_sqrt (dot3_self_nonneg _)]
    rw [this]
    field_simp
  · rw [len3_edge] at h; linarith

theorem edgeCloud_spec (rb : Nat → Nat → Bool) {S : PoolSurface (Nat → ℝ)} (hS : S.Valid 2) (h0 : 0 < S.numFaces) {U : Nat → ℝ} (hU : ∀ k, 0 ≤ U k ∧ U k < 1) (n : Nat) :
    ∃ C, edgeCloud rb S U n = some C ∧ CloudOk C n fun k => OnEdge S (U (2 * k)) (U (2 * k + 1)) := by
  induction n with
  | zero => exact ⟨_, rfl, cloudOk_none _⟩
  | succ n ih =>
    obtain ⟨C, e, hC⟩ := ih
    obtain ⟨x, w, f, ex, hx⟩ := edgeCloudPoint_spec hS h0 (v := U (2 * n + 1)) (hU (2 * n))
    obtain ⟨C', e', hC'⟩ := hC.add rb (x := x) (v := w) (f := f) hx
    exact ⟨C', by rw [edgeCloud]; simp only [e, ex, e'], hC'⟩

/-! ## Faces -/

/-- What a point of the cloud of the surface is: drawn from face `f`, whose share of the total area contains the first number; it lies on this face, and its direction is the one
listed for the face. -/
structure OnFace (S : PoolSurface (Nat → ℝ)) (N : List V3) (u : ℝ) (x : Nat → ℝ) (w : V3) (f : Nat) : Prop where
  lt : f < S.numFaces
  share : InShare S.numFaces (triFaceArea S) u f
  inside : ∃ y, InTriangle (S.point (S.corner f 0)) (S.point (S.corner f 1)) (S.point (S.corner f 2)) y ∧ ∀ d, d < 3 → x d = y d
  one : x 3 = 1
  dir : N[f]? = some w

theorem faceCloudPoint_spec {S : PoolSurface (Nat → ℝ)} (hS : S.Valid 3) (h0 : 0 < S.numFaces) {u : ℝ} (hu : 0 ≤ u ∧ u < 1) {us : Nat → ℝ}
    (hus : ∀ k, 0 < k → k < 3 → 0 ≤ us k ∧ us k < 1) {N : List V3} (hN : N.length = S.numFaces) :
    ∃ x f w, faceCloudPoint S u us = some (x, f) ∧ N[f]? = some w ∧ OnFace S N u (cloudPoint x) w f := by
  obtain ⟨f, ep, hf, hs⟩ := pick_share S.numFaces h0 (triFaceArea S) (fun i _ => triFaceArea_nonneg S i) u hu
  unfold faceCloudPoint
  rw [show areaTable S = weightTable S.numFaces (triFaceArea S) from rfl, ep]
  have a0 : S.at f 0 = some (S.point (S.corner f 0)) := by unfold PoolSurface.at; rw [if_pos ⟨hf, hS f hf 0 (by omega)⟩]
  have a1 : S.at f 1 = some (S.point (S.corner f 1)) := by unfold PoolSurface.at; rw [if_pos ⟨hf, hS f hf 1 (by omega)⟩]
  have a2 : S.at f 2 = some (S.point (S.corner f 2)) := by unfold PoolSurface.at; rw [if_pos ⟨hf, hS f hf 2 (by omega)⟩]
  obtain ⟨p, v, e, hv0, hvs, hvp⟩ := C37_simplex 3 (by omega) (fun j => if j = 0 then S.point (S.corner f 0) else if j = 1 then S.point (S.corner f 1) else S.point (S.corner f 2)) us hus
  simp only [a0, a1, a2, e]
  have hw : N[f]? = some N[f] := List.getElem?_eq_getElem (by omega)
  refine ⟨p, f, N[f], rfl, hw, hf, hs, ⟨p, ⟨v 0, v 1, v 2, hv0 0 (by omega), hv0 1 (by omega), hv0 2 (by omega), ?_, fun d => ?_⟩, fun d hd => by
    simp [cloudPoint, upd, show d ≠ 3 by omega]⟩, by simp [cloudPoint, upd], hw⟩
  · rw [← hvs]; simp [Finset.sum_range_succ]
  · rw [hvp]; simp [Finset.sum_range_succ]

theorem faceCloud_spec (rb : Nat → Nat → Bool) {S : PoolSurface (Nat → ℝ)} (hS : S.Valid 3) (h0 : 0 < S.numFaces) {N : List V3} (hN : N.length = S.numFaces) {U : Nat → ℝ}
    (hU : ∀ k, 0 ≤ U k ∧ U k < 1) (n : Nat) : ∃ C, faceCloud rb S N U n = some C ∧ CloudOk C n fun k => OnFace S N (U (3 * k)) := by
  induction n with
  | zero => exact ⟨_, rfl, cloudOk_none _⟩
  | succ n ih =>
    obtain ⟨C, e, hC⟩ := ih
    obtain ⟨x, f, w, ex, ew, hx⟩ := faceCloudPoint_spec hS h0 (hU (3 * n)) (us := fun k => U (3 * n + k)) (fun k _ _ => hU _) hN
    obtain ⟨C', e', hC'⟩ := hC.add rb (x := x) (v := w) (f := f) hx
    exact ⟨C', by rw [faceCloud]; simp only [e, ex, ew, e'], hC'⟩

/-! ## Distances -/

/-- `h` is the distance from `x` to the nearest point of the cloud with `far`, `⊤` if there is none. -/
def IsNearest (C : Cloud) (far : Nat → Prop) (x : Nat → ℝ) (h : WithTop ℝ) : Prop :=
  (∀ k, k < C.tree.num → far k → h ≤ ((euclid 3 x (C.tree.pts k) : ℝ) : WithTop ℝ)) ∧
    (h = ⊤ ∨ ∃ k, k < C.tree.num ∧ far k ∧ h = ((euclid 3 x (C.tree.pts k) : ℝ) : WithTop ℝ))

theorem IsNearest.nonneg {C : Cloud} {far : Nat → Prop} {x : Nat → ℝ} {h : WithTop ℝ} (H : IsNearest C far x h) : 0 ≤ h := by
  rcases H.2 with rfl | ⟨k, -, -, rfl⟩
  · exact le_top
  · exact WithTop.coe_le_coe.2 (euclid_nonneg _ _ _)

theorem Cloud.nearest_spec {C : Cloud} (hC : C.tree.asSTree.Wf) (h0 : 0 < C.tree.num) (far : Nat → Bool) (x : Nat → ℝ) :
    ∃ h, C.nearest far x = some h ∧ IsNearest C (fun k => far k = true) x h := by
  have hT : SphereTree C.tree.spheres C.tree.links := hC.resolve_left (by show C.tree.num ≠ 0; omega)
  obtain ⟨c, b, e, h⟩ := C06_closest_is_exhaustive C.tree.spheres C.tree.links hT.tree far x false ⊤ le_top
  refine ⟨b, by unfold Cloud.nearest; rw [e], ?_⟩
  rcases h with ⟨h1, h2, rfl, -, h5⟩ | ⟨-, rfl, h3⟩
  · exact ⟨fun k hk hf => WithTop.coe_le_coe.2 (h5 k hk hf), .inr ⟨c, h1, h2, rfl⟩⟩
  · exact ⟨fun k hk hf => h3 k hk hf, .inl rfl⟩

theorem Cloud.nearest_empty {C : Cloud} (h0 : C.tree.num = 0) (far : Nat → Bool) (x : Nat → ℝ) : C.nearest far x = .none := by
  unfold Cloud.nearest
  rw [closestQuery_empty h0]

/-- `x` lies in the open double cone around the plane through `p` with unit normal `v`: the angle between `x - p` and the plane has a cosine above `th`. -/
def NearPlane (th : ℝ) (x p : Nat → ℝ) (v : V3) : Prop := dot3 (fun d => x d.val - p d.val) v ^ 2 < (1 - th ^ 2) * euclid 3 x p ^ 2

/-- `x` lies in the open double cone around the line through `p` with unit direction `v`: the angle between `x - p` and the line has a cosine above `th`. -/
def NearLine (th : ℝ) (x p : Nat → ℝ) (v : V3) : Prop := th * euclid 3 x p < |dot3 (fun d => x d.val - p d.val) v|

theorem flatAlong_iff {th : ℝ} (h0 : 0 ≤ th) {x p : Nat → ℝ} (hd : 0 < euclid 3 x p) (v : V3) : flatAlong th (alignment x p v) ↔ NearPlane th x p v := by
  unfold flatAlong alignment NearPlane
  rw [distance_eq]
  set D := euclid 3 x p
  have hs : dot3 (fun d => toV3 x d - toV3 p d) v = dot3 (fun d => x d.val - p d.val) v := rfl
  rw [hs]
  set s := dot3 (fun d => x d.val - p d.val) v
  have hq : s / D * (s / D) = s ^ 2 / D ^ 2 := by field_simp
  have hD : 0 < D ^ 2 := by positivity
  rw [hq]
  have key : th < Real.sqrt (1 - s ^ 2 / D ^ 2) ↔ th ^ 2 < 1 - s ^ 2 / D ^ 2 := Real.lt_sqrt h0
  have key2 : th ^ 2 < 1 - s ^ 2 / D ^ 2 ↔ s ^ 2 < (1 - th ^ 2) * D ^ 2 := by
    rw [← div_lt_iff₀ hD]; constructor <;> intro h <;> linarith
  constructor
  · rintro ⟨-, h⟩
    exact key2.1 (key.1 h)
  · intro h
    have := key2.2 h
    exact ⟨by nlinarith [sq_nonneg th], key.2 this⟩

theorem offPlane_iff {tol th : ℝ} (ht : 0 ≤ tol) (h0 : 0 ≤ th) (h1 : th < 1) (x p : Nat → ℝ) (v : V3) :
    offPlane tol th x p v = true ↔ tol < euclid 3 x p ∧ ¬ NearPlane th x p v := by
  classical
  unfold offPlane
  rw [decide_eq_true_eq, distance_eq]
  by_cases hd : euclid 3 x p > tol
  · rw [if_pos hd, flatAlong_iff h0 (lt_of_le_of_lt ht hd)]
    exact ⟨fun h => ⟨hd, h⟩, fun h => h.2⟩
  · rw [if_neg hd]
    exact ⟨fun h => absurd h1 h, fun h => absurd h.1 hd⟩

theorem offFace_iff {th : ℝ} (h0 : 0 ≤ th) (x p : Nat → ℝ) (w v : V3) :
    offFace th x p w v = true ↔ 1e-10 < euclid 3 x p ∧ ¬ (NearPlane th x p v ∧ NearPlane th x p w) := by
  classical
  unfold offFace
  rw [decide_eq_true_eq, distance_eq]
  constructor
  · rintro ⟨h, hn⟩
    have hd : 0 < euclid 3 x p := lt_trans (by norm_num) h
    rw [flatAlong_iff h0 hd, flatAlong_iff h0 hd] at hn
    exact ⟨h, hn⟩
  · rintro ⟨h, hn⟩
    have hd : 0 < euclid 3 x p := lt_trans (by norm_num) h
    rw [flatAlong_iff h0 hd, flatAlong_iff h0 hd]
    exact ⟨h, hn⟩

theorem offLine_iff {tol th : ℝ} (ht : 0 ≤ tol) (h1 : th < 1) (x p : Nat → ℝ) (v : V3) : offLine tol th x p v = true ↔ tol < euclid 3 x p ∧ ¬ NearLine th x p v := by
  classical
  unfold offLine
  rw [decide_eq_true_eq, distance_eq]
  by_cases hd : euclid 3 x p > tol
  · rw [if_pos hd]
    have hpos : 0 < euclid 3 x p := lt_of_le_of_lt ht hd
    have : th < |alignment x p v| ↔ NearLine th x p v := by
      unfold alignment NearLine
      rw [distance_eq, abs_div, abs_of_pos hpos, lt_div_iff₀ hpos]
      rfl
    constructor
    · intro h; exact ⟨hd, fun hn => h (this.2 hn)⟩
    · rintro ⟨-, h⟩ hn; exact h (this.1 hn)
  · rw [if_neg hd]
    exact ⟨fun h => absurd h1 h, fun h => absurd h.1 hd⟩

/-! ## The property -/

/-- **C92, sharp edges.** For every re-balancing, all random numbers and every number of points the cloud of the sharp edges holds that many points; every one lies on the edge
recorded for it, which is drawn by its share of the total length, and has the unit tangent of this edge. -/
theorem C92_edge_cloud (rb : Nat → Nat → Bool) (S : PoolSurface (Nat → ℝ)) (hS : S.Valid 2) (h0 : 0 < S.numFaces) (U : Nat → ℝ) (hU : ∀ k, 0 ≤ U k ∧ U k < 1) (n : Nat) :
    ∃ C, edgeCloud rb S U n = some C ∧ C.tree.asSTree.Wf ∧ C.tree.num = n ∧ C.dir.length = n ∧ C.ids.length = n ∧
      ∀ (k : Nat) (w : V3) (e : Nat), C.dir[k]? = some w → C.ids[k]? = some e → OnEdge S (U (2 * k)) (U (2 * k + 1)) (C.tree.pts k) w e := by
  obtain ⟨C, e, h⟩ := edgeCloud_spec rb hS h0 hU n
  exact ⟨C, e, h.wf, h.num, h.dir, h.ids, h.on⟩

/-- **C92, faces.** The same for the cloud of the surface: every point lies on the face recorded for it, drawn by its share of the total area, and has the normal listed for it. -/
theorem C92_face_cloud (rb : Nat → Nat → Bool) (S : PoolSurface (Nat → ℝ)) (hS : S.Valid 3) (h0 : 0 < S.numFaces) (N : List V3) (hN : N.length = S.numFaces) (U : Nat → ℝ)
    (hU : ∀ k, 0 ≤ U k ∧ U k < 1) (n : Nat) :
    ∃ C, faceCloud rb S N U n = some C ∧ C.tree.asSTree.Wf ∧ C.tree.num = n ∧ C.dir.length = n ∧ C.ids.length = n ∧
      ∀ (k : Nat) (w : V3) (f : Nat), C.dir[k]? = some w → C.ids[k]? = some f → OnFace S N (U (3 * k)) (C.tree.pts k) w f := by
  obtain ⟨C, e, h⟩ := faceCloud_spec rb hS h0 hN hU n
  exact ⟨C, e, h.wf, h.num, h.dir, h.ids, h.on⟩

/-- **C92, distances.** With a threshold angle of at most 90 degrees and a cloud that is not empty, the three queries give the distance to the nearest point of the cloud that is
farther than the tolerance and from which `x` is seen outside the cone around its plane, its line, or one of the two planes. -/
theorem C92_distances (C : Cloud) (hC : C.tree.asSTree.Wf) (h0 : 0 < C.tree.num) (tol th : ℝ) (ht : 0 ≤ tol) (hth : 0 ≤ th) (h1 : th < 1) (x : Nat → ℝ) (w : V3) :
    (∃ h, C.plane tol th x = some h ∧ IsNearest C (fun k => tol < euclid 3 x (C.tree.pts k) ∧ ¬ NearPlane th x (C.tree.pts k) (C.dirAt k)) x h) ∧
    (∃ h, C.line tol th x = some h ∧ IsNearest C (fun k => tol < euclid 3 x (C.tree.pts k) ∧ ¬ NearLine th x (C.tree.pts k) (C.dirAt k)) x h) ∧
    ∃ h, C.face th x w = some h ∧ IsNearest C (fun k => 1e-10 < euclid 3 x (C.tree.pts k) ∧ ¬ (NearPlane th x (C.tree.pts k) (C.dirAt k) ∧ NearPlane th x (C.tree.pts k) w)) x h := by
  refine ⟨?_, ?_, ?_⟩
  · obtain ⟨h, e, H⟩ := Cloud.nearest_spec hC h0 (fun k => offPlane tol th x (C.tree.pts k) (C.dirAt k)) x
    simp only [offPlane_iff ht hth h1] at H
    exact ⟨h, e, H⟩
  · obtain ⟨h, e, H⟩ := Cloud.nearest_spec hC h0 (fun k => offLine tol th x (C.tree.pts k) (C.dirAt k)) x
    simp only [offLine_iff ht h1] at H
    exact ⟨h, e, H⟩
  · obtain ⟨h, e, H⟩ := Cloud.nearest_spec hC h0 (fun k => offFace th x (C.tree.pts k) w (C.dirAt k)) x
    simp only [offFace_iff hth] at H
    exact ⟨h, e, H⟩

/-- **C92, precondition.** A query of a cloud without points reads past the end of the tree. -/
theorem C92_empty_undefined (C : Cloud) (h0 : C.tree.num = 0) (tol th : ℝ) (x : Nat → ℝ) (w : V3) : C.plane tol th x = none ∧ C.line tol th x = none ∧ C.face th x w = none :=
  ⟨Cloud.nearest_empty h0 _ x, Cloud.nearest_empty h0 _ x, Cloud.nearest_empty h0 _ x⟩

/-- The prescribed size is the one stored with the nearest point of the sizing function. -/
theorem sizeAt_spec (t : STree) (h0 : SphereTree t.store t.links) (x : Nat → ℝ) : ∃ c, c < t.store.num ∧ sizeAt (some t) x = some ((t.store.pts c 3 : ℝ) : WithTop ℝ) ∧
    ∀ k, k < t.store.num → euclid 3 x (t.store.pts c) ≤ euclid 3 x (t.store.pts k) := by
  have hn : 0 < t.store.num := by
    obtain ⟨T, h1, h2, h3⟩ := h0.tree.ok
    by_contra hz
    cases T with
    | nil => exact h2 rfl
    | node i l r => have := (h3 i).1 (by simp [KT.idx]); omega
  obtain ⟨c, b, e, h⟩ := C06_closest_is_exhaustive t.store t.links h0.tree (fun _ => true) x false ⊤ le_top
  rcases h with ⟨h1, -, -, -, h5⟩ | ⟨-, -, h3⟩
  · refine ⟨c, h1, ?_, fun k hk => by have := h5 k hk rfl; rwa [h0.dim] at this⟩
    unfold sizeAt
    simp only
    rw [if_neg hn.ne', e]
    simp only
    rw [if_pos h1]
  · have := h3 0 hn rfl
    simp at this

/-- **C92, prescribed size.** -/
theorem C92_size (t : STree) (h0 : SphereTree t.store t.links) (x : Nat → ℝ) : sizeAt none x = some ⊤ ∧ ∃ c, c < t.store.num ∧
    sizeAt (some t) x = some ((t.store.pts c 3 : ℝ) : WithTop ℝ) ∧ ∀ k, k < t.store.num → euclid 3 x (t.store.pts c) ≤ euclid 3 x (t.store.pts k) :=
  ⟨rfl, sizeAt_spec t h0 x⟩

/-- **C92, undefined.** With a sizing function without points the record behind the last one is read. -/
theorem C92_empty_size_undefined (t : STree) (h0 : t.store.num = 0) (x : Nat → ℝ) : sizeAt (some t) x = none := by
  simp only [sizeAt]
  rw [if_pos h0]

-- ten points on two edges, and ten on one face
example : ∃ C, edgeCloud (fun _ _ => false) ⟨3, fun i => mkSphere i 0 0 0, 2, fun e i => e + i⟩ (fun _ => 1 / 2) 10 = some C ∧ C.tree.num = 10 := by
  obtain ⟨C, e, -, h, -⟩ := C92_edge_cloud (fun _ _ => false) ⟨3, fun i => mkSphere i 0 0 0, 2, fun e i => e + i⟩ (fun f hf i hi => by
    simp only at hf ⊢; omega) Nat.two_pos (fun _ => 1 / 2) (fun _ => by norm_num) 10
  exact ⟨C, e, h⟩

example : ∃ C, faceCloud (fun _ _ => false) ⟨3, fun i => if i = 0 then mkSphere 1 0 0 0 else if i = 1 then mkSphere 0 1 0 0 else mkSphere 0 0 0 0, 1, fun _ i => i⟩ [![0, 0, 1]] (fun _ => 1 / 3) 10 = some C ∧
    C.tree.num = 10 ∧ ∃ h, C.face (9 / 10) (mkSphere 0 0 1 0) ![0, 0, 1] = some h ∧ h ≠ ⊤ := by
  obtain ⟨C, e, hw, h, hd, hi, hon⟩ := C92_face_cloud (fun _ _ => false) ⟨3, fun i => if i = 0 then mkSphere 1 0 0 0 else if i = 1 then mkSphere 0 1 0 0 else mkSphere 0 0 0 0, 1, fun _ i => i⟩
    (fun f _ i hi => hi) Nat.one_pos [![0, 0, 1]] rfl (fun _ => 1 / 3) (fun _ => by norm_num) 10
  refine ⟨C, e, h, ?_⟩
  obtain ⟨-, -, g, eg, hg⟩ := C92_distances C hw (by omega) 0 (9 / 10) le_rfl (by norm_num) (by norm_num) (mkSphere 0 0 1 0) ![0, 0, 1]
  refine ⟨g, eg, fun ht => ?_⟩
  have hk0 : C.dir[0]? = some C.dir[0] := List.getElem?_eq_getElem (by omega)
  have hk1 : C.ids[0]? = some C.ids[0] := List.getElem?_eq_getElem (by omega)
  obtain ⟨hf, -, ⟨y, ⟨u, v, w, hu, hv, hw0, hs, hy⟩, hx⟩, -, hdir⟩ := hon 0 _ _ hk0 hk1
  have hz : C.tree.pts 0 2 = 0 := by
    rw [hx 2 (by omega), hy 2]
    have hf : C.ids[0] < 1 := hf
    simp [mkSphere]
  have hdz : C.dirAt 0 = ![0, 0, 1] := by
    have : C.ids[0] = 0 := by have hf : C.ids[0] < 1 := hf; omega
    rw [this] at hdir
    unfold Cloud.dirAt
    rw [List.getD_eq_getElem?_getD, hk0]
    simpa using hdir.symm
  have hE : euclid 3 (mkSphere 0 0 1 0) (C.tree.pts 0) ^ 2 = C.tree.pts 0 0 ^ 2 + C.tree.pts 0 1 ^ 2 + 1 := by
    rw [euclid_sq]; simp [Finset.sum_range_succ, mkSphere, hz]
  have := hg.1 0 (by omega) ⟨by
      have := euclid_nonneg 3 (mkSphere 0 0 1 0) (C.tree.pts 0)
      nlinarith [sq_nonneg (C.tree.pts 0 0), sq_nonneg (C.tree.pts 0 1)], fun hc => ?_⟩
  · rw [ht] at this; simp at this
  · have h1 := hc.1
    unfold NearPlane at h1
    rw [hE, hdz] at h1
    have hx0 : C.tree.pts 0 0 = u := by rw [hx 0 (by omega), hy 0]; simp [mkSphere]
    have hx1 : C.tree.pts 0 1 = v := by rw [hx 1 (by omega), hy 1]; simp [mkSphere]
    rw [hx0, hx1] at h1
    norm_num [dot3, mkSphere, hz] at h1
    rw [show (![0, 0, 1] : V3) 2 = 1 from rfl] at h1
    have hq : (u + v + w) ^ 2 = 1 := by rw [hs]; norm_num
    nlinarith [mul_nonneg hu hv, mul_nonneg hu hw0, mul_nonneg hv hw0, sq_nonneg w]

end VoroCrust
