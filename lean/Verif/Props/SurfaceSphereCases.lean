import Verif.Props.SurfaceSpheres
import Mathlib.Tactic.IntervalCases
import Mathlib.Tactic.SplitIfs

/-! # Property C82, preconditions and cases, and property C83 -/

namespace VoroCrust

/-! ## Surfaces inside spheres -/

/-- A face inside one sphere of the tree scaled by `k`. -/
def FaceIn (t : STree) (k : ℝ) (A B C : Nat → ℝ) : Prop :=
  ∃ s, s < t.store.num ∧ ∀ X, (X = A ∨ X = B ∨ X = C) → euclid 3 X (t.store.pts s) < k * t.store.pts s 3

theorem FaceIn.point {t : STree} {k : ℝ} {A B C x : Nat → ℝ} (h : FaceIn t k A B C) (hx : InTriangle A B C x) :
    ∃ s, s < t.store.num ∧ euclid 3 x (t.store.pts s) < k * t.store.pts s 3 := by
  obtain ⟨s, hs, hd⟩ := h
  obtain ⟨u, v, w, hu, hv, hw, h1, ex⟩ := hx
  refine ⟨s, hs, ?_⟩
  rw [show x = fun d => u * A d + v * B d + w * C d from funext ex]
  exact euclid_convex3 3 A B C _ hu hv hw h1 (hd A (.inl rfl)) (hd B (.inr (.inl rfl))) (hd C (.inr (.inr rfl)))

/-- Every face is inside one sphere. -/
structure FacesIn (E : SurfSetup) (r : SurfRun) : Prop where
  lipe : LipschitzRadii E.edge.store E.L
  lipc : LipschitzRadii E.corner.store E.L
  lips : LipschitzRadii r.tree.spheres E.L
  all : ∀ f, f < E.S.numFaces → FaceIn r.tree.asSTree (Real.sqrt (1 - E.ratio ^ 2)) (E.S.point (E.S.corner f 0)) (E.S.point (E.S.corner f 1)) (E.S.point (E.S.corner f 2)) ∨
    FaceIn E.edge 1 (E.S.point (E.S.corner f 0)) (E.S.point (E.S.corner f 1)) (E.S.point (E.S.corner f 2)) ∨
    FaceIn E.corner 1 (E.S.point (E.S.corner f 0)) (E.S.point (E.S.corner f 1)) (E.S.point (E.S.corner f 2))

theorem pointCovered_in {t : STree} (ht : t.Wf) {L α : ℝ} (hL0 : 0 ≤ L) (hL1 : L < 1) (h0 : 0 ≤ α) (h1 : α < 1) (hl : LipschitzRadii t.store L) {x : Nat → ℝ}
    (h : ∃ s, s < t.store.num ∧ euclid 3 x (t.store.pts s) < Real.sqrt (1 - α ^ 2) * t.store.pts s 3) : pointCovered t.store t.links L α x = some true := by
  have hw : SphereTree t.store t.links := ht.resolve_left fun hz => by obtain ⟨s, hs, -⟩ := h; omega
  obtain ⟨b, e, -, hb⟩ := C24_point_covered t.store t.links hw L α hL0 hL1 h0 h1 x
  rw [e, hb hl h]

theorem faceCovered_in {t : STree} (ht : t.Wf) {L α : ℝ} (hL0 : 0 ≤ L) (hL1 : L < 1) (h0 : 0 ≤ α) (h1 : α < 1) (hl : LipschitzRadii t.store L) {A B C : Nat → ℝ}
    (h : FaceIn t (Real.sqrt (1 - α ^ 2)) A B C) : faceCovered t.store t.links L α A B C = some true := by
  have hw : SphereTree t.store t.links := ht.resolve_left fun hz => by obtain ⟨s, hs, -⟩ := h; omega
  obtain ⟨b, e, -, hb⟩ := C25_face_covered t.store t.links hw L α hL0 hL1 h0 h1 A B C
  rw [e, hb hl h]

theorem faceCovered_defined {t : STree} (ht : t.Wf) {L α : ℝ} (hL0 : 0 ≤ L) (hL1 : L < 1) (h0 : 0 ≤ α) (h1 : α < 1) (A B C : Nat → ℝ) :
    ∃ b, faceCovered t.store t.links L α A B C = some b := by
  rcases ht with h | h
  · exact ⟨false, by unfold faceCovered; rw [if_pos h]⟩
  · obtain ⟨b, e, -⟩ := C25_face_covered t.store t.links h L α hL0 hL1 h0 h1 A B C
    exact ⟨b, e⟩

theorem sqrt_one_sub_zero : Real.sqrt (1 - (0 : ℝ) ^ 2) = 1 := by norm_num

theorem FacesIn.dart {E : SurfSetup} (hE : E.Ok) {r : SurfRun} (hr : r.tree.asSTree.Wf) (h : FacesIn E r) {f : Nat} (hf : f < E.S.numFaces) {x : Nat → ℝ}
    (hx : InTriangle (E.S.point (E.S.corner f 0)) (E.S.point (E.S.corner f 1)) (E.S.point (E.S.corner f 2)) x) : surfCovered E r x = some true := by
  obtain ⟨bc, ec⟩ := pointCovered_defined hE.corner hE.L0 hE.L1 le_rfl one_pos x
  obtain ⟨be, ee⟩ := pointCovered_defined hE.edge hE.L0 hE.L1 le_rfl one_pos x
  unfold surfCovered
  rw [ec]
  cases bc with
  | true => rfl
  | false =>
    simp only [ee]
    cases be with
    | true => rfl
    | false =>
      simp only
      rcases h.all f hf with h' | h' | h'
      · exact pointCovered_in hr hE.L0 hE.L1 hE.ratio0 hE.ratio1 h.lips (h'.point hx)
      · rw [pointCovered_in hE.edge hE.L0 hE.L1 le_rfl one_pos h.lipe (by rw [sqrt_one_sub_zero]; exact h'.point hx)] at ee
        simp at ee
      · rw [pointCovered_in hE.corner hE.L0 hE.L1 le_rfl one_pos h.lipc (by rw [sqrt_one_sub_zero]; exact h'.point hx)] at ec
        simp at ec

theorem FacesIn.face {E : SurfSetup} (hE : E.Ok) {r : SurfRun} (hr : r.tree.asSTree.Wf) (h : FacesIn E r) {f : Nat} (hf : f < E.S.numFaces) :
    coveredFace r.tree.asSTree E.edge E.corner E.L E.ratio (E.S.point (E.S.corner f 0)) (E.S.point (E.S.corner f 1)) (E.S.point (E.S.corner f 2)) = some true := by
  obtain ⟨bs, es⟩ := faceCovered_defined hr hE.L0 hE.L1 hE.ratio0 hE.ratio1 (E.S.point (E.S.corner f 0)) (E.S.point (E.S.corner f 1)) (E.S.point (E.S.corner f 2))
  obtain ⟨be, ee⟩ := faceCovered_defined hE.edge hE.L0 hE.L1 le_rfl one_pos (E.S.point (E.S.corner f 0)) (E.S.point (E.S.corner f 1)) (E.S.point (E.S.corner f 2))
  unfold coveredFace
  rw [es]
  cases bs with
  | true => rfl
  | false =>
    simp only [ee]
    cases be with
    | true => rfl
    | false =>
      simp only
      rcases h.all f hf with h' | h' | h'
      · rw [faceCovered_in hr hE.L0 hE.L1 hE.ratio0 hE.ratio1 h.lips h'] at es
        simp at es
      · rw [faceCovered_in hE.edge hE.L0 hE.L1 le_rfl one_pos h.lipe (by rw [sqrt_one_sub_zero]; exact h')] at ee
        simp at ee
      · exact faceCovered_in hE.corner hE.L0 hE.L1 le_rfl one_pos h.lipc (by rw [sqrt_one_sub_zero]; exact h')

theorem FacesIn.refine {E : SurfSetup} (hE : E.Ok) {r : SurfRun} (hr : r.tree.asSTree.Wf) (h : FacesIn E r) (pool : List (PoolEntry ℝ)) (hd : Decodes E.S 0 pool) :
    refineSeq (uncoveredChildren midpoint3 area3 (coveredFace r.tree.asSTree E.edge E.corner E.L E.ratio) E.S 0) pool = some [] := by
  induction pool with
  | nil => rfl
  | cons p pool ih =>
    obtain ⟨k, hk⟩ := hd p (by simp)
    have hp := (faceCorners_inside E.S 0 p k hk).1
    have hk0 : k.c0 = E.S.point (E.S.corner p.parent 0) ∧ k.c1 = E.S.point (E.S.corner p.parent 1) ∧ k.c2 = E.S.point (E.S.corner p.parent 2) := by
      have hat : ∀ i, i < 3 → E.S.at p.parent i = some (E.S.point (E.S.corner p.parent i)) := fun i hi => by
        unfold PoolSurface.at; rw [if_pos ⟨hp, hE.valid _ hp i hi⟩]
      unfold faceCorners at hk
      rw [hat 0 (by omega), hat 1 (by omega), hat 2 (by omega)] at hk
      have := Option.some.inj (show some _ = some k from hk)
      rw [← this]
      exact ⟨rfl, rfl, rfl⟩
    have hu : uncoveredChildren midpoint3 area3 (coveredFace r.tree.asSTree E.edge E.corner E.L E.ratio) E.S 0 p = some [] := by
      unfold uncoveredChildren
      simp only [hk]
      rw [hk0.1, hk0.2.1, hk0.2.2, h.face hE hr hp]
    rw [refineSeq, hu, ih fun e he => hd e (by simp [he])]
    rfl

theorem FacesIn.draw {E : SurfSetup} (hE : E.Ok) {r : SurfRun} (hr : r.tree.asSTree.Wf) (h : FacesIn E r) (level : Nat) {pool : List (PoolEntry ℝ)} (hne : pool ≠ [])
    (hd : Decodes E.S level pool) (n : Nat) : ∃ ds, drawDarts E level pool r n = some ds ∧ ds.length = n ∧ ∀ d ∈ ds, d.covered = true := by
  induction n with
  | zero => exact ⟨[], rfl, rfl, by simp⟩
  | succ n ih =>
    obtain ⟨ds, e, hl, hc⟩ := ih
    obtain ⟨x, f, es, ⟨p, hp, rfl⟩, hx⟩ := C69_dart_on_its_face E.S level pool hne hd (poolTable pool) (E.U n (3 * r.calls)) (fun k => E.U n (3 * r.calls + k)) fun k _ _ => hE.U _ _
    obtain ⟨c, hk⟩ := hd p hp
    refine ⟨ds ++ [⟨x, p.parent, true⟩], ?_, by simp [hl], fun d hdm => ?_⟩
    · rw [drawDarts]
      simp only [e, es, h.dart hE hr (faceCorners_inside E.S level p c hk).1 hx]
    · rcases List.mem_append.1 hdm with h1 | h1
      · exact hc d h1
      · rw [List.mem_singleton.1 h1]

theorem sizeDarts_covered {E : SurfSetup} (ds : List Draw) : ∀ (prev : List Draw) (r : SurfRun), (∀ d ∈ ds, d.covered = true) → sizeDarts E prev ds r = some (prev ++ ds, r) := by
  induction ds with
  | nil => intro prev r _; simp [sizeDarts]
  | cons d ds ih =>
    intro prev r h
    rw [sizeDarts, if_pos (h d (by simp)), ih _ r fun x hx => h x (by simp [hx])]
    simp

theorem addDarts_covered {E : SurfSetup} (r : SurfRun) (ds : List Draw) : ∀ m : Nat, (∀ d ∈ ds, d.covered = true) → m < 100 → addDarts E ds r m = some (r, min (m + ds.length) 100) := by
  induction ds with
  | nil => intro m _ hm; rw [addDarts, List.length_nil, Nat.add_zero, min_eq_left (by omega)]
  | cons d ds ih =>
    intro m h hm
    rw [addDarts, if_pos (h d (by simp))]
    by_cases h1 : m + 1 ≥ 100
    · rw [if_pos h1, List.length_cons, min_eq_right (by omega), show m + 1 = 100 by omega]
    · rw [if_neg h1, ih (m + 1) (fun x hx => h x (by simp [hx])) (by omega), List.length_cons, show m + 1 + ds.length = m + (ds.length + 1) by omega]

/-- With every face inside one sphere the sampling of a patch ends after the hundredth miss. -/
theorem surfMps_covered {E : SurfSetup} (hE : E.Ok) {pool : List (PoolEntry ℝ)} (hne : pool ≠ []) (hd : Decodes E.S 0 pool) (n : Nat) :
    ∀ (k misses : Nat) (r : SurfRun), r.tree.asSTree.Wf → FacesIn E r → misses < 100 → 100 ≤ misses + n →
      ∃ c, surfMps E (n + k) 0 pool misses r = some (some { r with calls := c }) := by
  induction n with
  | zero => intro k misses r _ _ h1 h2; omega
  | succ n ih =>
    intro k misses r hr h h1 h2
    obtain ⟨ds, e, hl, hc⟩ := h.draw hE hr 0 hne hd E.T
    have hround : surfRound E 0 pool r misses = some ({ r with calls := r.calls + 1 }, min (misses + E.T) 100) := by
      unfold surfRound
      simp only [e, sizeDarts_covered ds [] r hc, List.nil_append]
      rw [addDarts_covered _ ds misses hc h1, hl]
    rw [show n + 1 + k = (n + k) + 1 by omega, surfMps, hround]
    simp only
    have hin : FacesIn E { r with calls := r.calls + 1 } := ⟨h.lipe, h.lipc, h.lips, h.all⟩
    by_cases hm : min (misses + E.T) 100 ≥ 100
    · rw [if_pos hm]
      rw [show refineSeq (uncoveredChildren midpoint3 area3 (coveredFace ({ r with calls := r.calls + 1 } : SurfRun).tree.asSTree E.edge E.corner E.L E.ratio) E.S 0) pool = some [] from
        h.refine hE hr pool hd]
      exact ⟨r.calls + 1, rfl⟩
    · rw [if_neg hm]
      obtain ⟨c, hc⟩ := ih k (min (misses + E.T) 100) { r with calls := r.calls + 1 } hr hin (by omega) (by have := hE.T; omega)
      exact ⟨c, hc⟩

theorem surfPatches_covered {E : SurfSetup} (hE : E.Ok) (mps : Nat) (hm : 100 ≤ mps) (ps : List (Nat × List Nat)) : (∀ p ∈ ps, p.2 ≠ [] ∧ ∀ f ∈ p.2, f < E.S.numFaces) →
    ∀ r : SurfRun, r.tree.asSTree.Wf → FacesIn E r → ∃ c, surfPatches E mps ps r = some (some { r with calls := c }) := by
  induction ps with
  | nil => intro _ r _ _; exact ⟨r.calls, rfl⟩
  | cons p ps ih =>
    intro hps r hr h
    obtain ⟨hpn, hpf⟩ := hps p (by simp)
    obtain ⟨pool, ep, dp, qp⟩ := initialPool_spec area3 E.S hE.valid p.2 hpf
    have hne : pool ≠ [] := by
      rintro rfl
      obtain ⟨f, hf⟩ := List.exists_mem_of_ne_nil _ hpn
      obtain ⟨e, he, -⟩ := qp f hf _ ⟨1, 0, 0, by norm_num, le_rfl, le_rfl, by norm_num, fun d => rfl⟩
      simp at he
    obtain ⟨c, hc⟩ := surfMps_covered hE hne dp 100 (mps - 100) 0 r hr h (by norm_num) (by norm_num)
    rw [show 100 + (mps - 100) = mps by omega] at hc
    obtain ⟨c', hc'⟩ := ih (fun q hq => hps q (by simp [hq])) { r with calls := c } hr ⟨h.lipe, h.lipc, h.lips, h.all⟩
    exact ⟨c', by rw [surfPatches]; simp only [ep, hc, hc']⟩

/-- **C82, precondition.** If every face lies inside one edge or corner sphere no dart is accepted, and the Lipschitz pass reads the empty tree. -/
theorem C82_no_sphere_undefined (E : SurfSetup) (hE : E.Ok) (hle : LipschitzRadii E.edge.store E.L) (hlc : LipschitzRadii E.corner.store E.L)
    (hall : ∀ f, f < E.S.numFaces → ∃ t s, (t = E.edge ∨ t = E.corner) ∧ s < t.store.num ∧
      ∀ i, i < 3 → euclid 3 (E.S.point (E.S.corner f i)) (t.store.pts s) < t.store.pts s 3)
    (mps fuel : Nat) (hm : 100 ≤ mps) : surfaceSpheres E mps (fuel + 1) = none := by
  obtain ⟨ps, ep, hps, -⟩ := patches_all E.S.numFaces hE.some_face
  have hin : FacesIn E ⟨SmartTree.empty (fun _ _ => 0) id id, [], fun _ => none, 0, 0⟩ := by
    refine ⟨hle, hlc, fun i j hi => absurd hi (by show ¬ i < 0; omega), fun f hf => .inr ?_⟩
    obtain ⟨t, s, ht, hs, hd⟩ := hall f hf
    have : FaceIn t 1 (E.S.point (E.S.corner f 0)) (E.S.point (E.S.corner f 1)) (E.S.point (E.S.corner f 2)) := by
      refine ⟨s, hs, ?_⟩
      rintro X (rfl | rfl | rfl) <;> rw [one_mul]
      exacts [hd 0 (by omega), hd 1 (by omega), hd 2 (by omega)]
    rcases ht with rfl | rfl
    · exact .inl this
    · exact .inr this
  obtain ⟨c, hc⟩ := surfPatches_covered hE mps hm ps hps _ (.inl rfl) hin
  have hfin : ∀ r : SurfRun, r.tree.num = 0 → surfFinish E r = none := fun r h => by
    unfold surfFinish
    rw [C27_empty_undefined E.L r.tree.spheres r.tree.links h]
  have hchk : ∀ r : SurfRun, r.tree.num = 0 → surfCheck E r = none := fun r h => by
    unfold surfCheck
    by_cases ht : E.tol > 0
    · rw [if_pos ht, h]
      exact hfin _ h
    · rw [if_neg ht]; exact hfin _ h
  rw [surfaceSpheres, surfLoop]
  simp only [ep, hc]
  rw [hchk _ rfl]

/-- **C82, precondition.** Without faces the first dart is taken from an empty pool. -/
theorem C82_no_faces_undefined (E : SurfSetup) (h0 : E.S.numFaces = 0) (hT : 0 < E.T) (mps fuel : Nat) : surfaceSpheres E (mps + 1) (fuel + 1) = none := by
  obtain ⟨n, hn⟩ : ∃ n, E.T = n + 1 := ⟨E.T - 1, by omega⟩
  have hdraw : ∀ (r : SurfRun) (m : Nat), drawDarts E 0 [] r (m + 1) = none := by
    intro r m
    induction m with
    | zero => rfl
    | succ m ih => rw [drawDarts, ih]
  have hround : surfRound E 0 [] ⟨SmartTree.empty (fun _ _ => 0) id id, [], fun _ => none, 0, 0⟩ 0 = none := by
    unfold surfRound
    rw [hn, hdraw]
  have hp : patchLoop 0 100 0 100 = some [(0, [])] := by rfl
  rw [surfaceSpheres, surfLoop, h0, hp]
  simp only
  rw [surfPatches]
  simp only [initialPool]
  rw [surfMps, hround]

/-! ## One face -/

/-- No spheres. -/
noncomputable def noTree : STree := ⟨{ pts := fun _ _ => 0, num := 0, dim := 3, lt := realLt }, { left := id, right := id, origin := none, height := 0 }⟩

/-- A right-angled triangle with legs `a`, no edge or corner spheres; the non-smooth part of the surface is at distance `surf x` from the point `x`. -/
noncomputable def oneFace (a : ℝ) (surf : (Nat → ℝ) → WithTop ℝ) (T : Nat) (U : Nat → Nat → ℝ) : SurfSetup where
  S := ⟨3, fun i => if i = 0 then mkSphere a 0 0 0 else if i = 1 then mkSphere 0 a 0 0 else mkSphere 0 0 0 0, 1, fun _ i => i⟩
  edge := noTree
  corner := noTree
  surf x _ := some (surf x)
  cloud _ := some ⊤
  size _ := some ⊤
  tol := 20
  th := 1 / 2
  rmax := 100
  rmin := 0
  L := 1 / 2
  ratio := 1 / 2
  T := T
  rb _ _ := false
  U := U
  dart _ _ _ _ := 0
  hm _ _ _ _ := none
  r0 := 0

theorem oneFace_ok {a : ℝ} {surf : (Nat → ℝ) → WithTop ℝ} {T : Nat} {U : Nat → Nat → ℝ} (hs : ∀ x, 0 ≤ surf x) (hT : 0 < T) (hU : ∀ t k, 0 ≤ U t k ∧ U t k < 1) : (oneFace a surf T U).Ok := by
  refine ⟨fun f hf i hi => hi, Nat.one_pos, .inl rfl, .inl rfl, ?_, ?_, ?_, ?_, ?_, ?_, hT, hU, fun x f _ => ⟨_, rfl, hs x⟩, fun x => ⟨⊤, rfl, le_top⟩, fun x => ⟨⊤, rfl, le_top⟩, fun _ _ _ _ _ h => ?_⟩
  all_goals first | (simp [oneFace] at h; done) | norm_num [oneFace]

/-- The pool of the face. -/
noncomputable def onePool (a : ℝ) : List (PoolEntry ℝ) := [⟨0, [], area3 (mkSphere a 0 0 0) (mkSphere 0 a 0 0) (mkSphere 0 0 0 0)⟩]

theorem onePool_initial (a : ℝ) (surf : (Nat → ℝ) → WithTop ℝ) (T : Nat) (U : Nat → Nat → ℝ) : initialPool area3 (oneFace a surf T U).S [0] = some (onePool a) := by
  simp [initialPool, onePool, oneFace, PoolSurface.at]

/-- The dart with barycentric coordinates `v`. -/
theorem oneFace_dart {a : ℝ} {surf : (Nat → ℝ) → WithTop ℝ} {T : Nat} {U : Nat → Nat → ℝ} (cdf : Nat → ℝ) (u : ℝ) (us : Nat → ℝ) (v0 v1 v2 : ℝ) (h0 : 0 ≤ v0) (h1 : 0 ≤ v1) (h2 : 0 ≤ v2)
    (hs : v0 + v1 + v2 = 1) (e1 : us 1 = v0) (e2 : us 2 = v0 + v1) :
    ∃ x, sampleActiveFace (oneFace a surf T U).S 0 (onePool a) cdf u us = some (x, 0) ∧ x 0 = a * v0 ∧ x 1 = a * v1 ∧ x 2 = 0 := by
  obtain ⟨p, ep, hp⟩ := C37_simplex_reaches 3 (by norm_num) (fun j => if j = 0 then mkSphere a 0 0 0 else if j = 1 then mkSphere 0 a 0 0 else mkSphere 0 0 0 0)
    (fun i => if i = 0 then v0 else if i = 1 then v1 else v2) (fun i hi => by interval_cases i <;> simpa) (by simp [Finset.sum_range_succ, hs]) us 1 (fun k _ => rfl)
    (fun k hk hk3 => by
      have : k = 1 ∨ k = 2 := by omega
      rcases this with rfl | rfl
      · simp [e1]
      · simp [Finset.sum_range_succ, e2])
  refine ⟨p, ?_, ?_, ?_, ?_⟩
  · unfold sampleActiveFace
    obtain ⟨i, ei, hi⟩ := C35_search_in_range 1 one_pos (fun i => realLt u (cdf i)) (fun i => realLt (cdf i) u) 1 le_rfl
    obtain rfl : i = 0 := by omega
    have : (onePool a).length = 1 := rfl
    rw [this, ei]
    simp only [onePool, List.getElem?_cons_zero]
    have hf : ∃ k, faceCorners midpoint3 (oneFace a surf T U).S 0 ⟨0, [], area3 (mkSphere a 0 0 0) (mkSphere 0 a 0 0) (mkSphere 0 0 0 0)⟩ = some k ∧ k.c0 = mkSphere a 0 0 0 ∧
        k.c1 = mkSphere 0 a 0 0 ∧ k.c2 = mkSphere 0 0 0 0 := by
      simp [faceCorners, oneFace, PoolSurface.at, decodeFace, Corners6.mids]
    obtain ⟨k, ek, k0, k1, k2⟩ := hf
    rw [ek]
    simp only [k0, k1, k2, ep]
  all_goals rw [hp]; simp [Finset.sum_range_succ, mkSphere]; try ring

theorem scaleSz_top : scaleSz ⊤ = ⊤ := rfl

/-- The radius of a new sphere with no spheres near. -/
theorem oneFace_radius {a : ℝ} {surf : (Nat → ℝ) → WithTop ℝ} {T : Nat} {U : Nat → Nat → ℝ} {r : SurfRun} {t : Nat} {x : Nat → ℝ} {f : Nat}
    (hn : nearSurfDart (oneFace a surf T U) r t x = some []) : surfRadius (oneFace a surf T U) r t x f = some (atLeast (min ((100 : ℝ) : WithTop ℝ) (scaleSz (surf x))) 0) := by
  have hc : cornerLimit (oneFace a surf T U) x = some ⊤ := by
    unfold cornerLimit; rw [if_neg (by simp [oneFace, noTree])]
  unfold surfRadius
  rw [hn, hc]
  simp only [oneFace, limitNear, scaleSz_top, min_top_right]

theorem covered_noTree (L α : ℝ) (x : Nat → ℝ) : pointCovered noTree.store noTree.links L α x = some false := if_pos rfl

theorem lip_one {P : PointStore ℝ} (h : P.num = 1) (L : ℝ) : LipschitzRadii P L := by
  intro i j hi hj
  obtain rfl : i = 0 := by omega
  obtain rfl : j = 0 := by omega
  rw [euclid_self]; linarith

/-- The start. -/
noncomputable def surfStart : SurfRun := ⟨SmartTree.empty (fun _ _ => 0) id id, [], fun _ => none, 0, 0⟩

theorem start_uncovered {a : ℝ} {surf : (Nat → ℝ) → WithTop ℝ} {T : Nat} {U : Nat → Nat → ℝ} (x : Nat → ℝ) : surfCovered (oneFace a surf T U) surfStart x = some false := by
  unfold surfCovered
  simp only [oneFace, covered_noTree]
  exact if_pos rfl

/-- The first round with one thread: the dart becomes a sphere. -/
theorem oneFace_first {a : ℝ} {surf : (Nat → ℝ) → WithTop ℝ} {U : Nat → Nat → ℝ} (hs : ∀ x, 0 ≤ surf x) (hU : ∀ t k, 0 ≤ U t k ∧ U t k < 1) (v0 v1 v2 : ℝ) (h0 : 0 ≤ v0) (h1 : 0 ≤ v1)
    (h2 : 0 ≤ v2) (hv : v0 + v1 + v2 = 1) (e1 : U 0 1 = v0) (e2 : U 0 2 = v0 + v1) :
    ∃ x t ρ, x 0 = a * v0 ∧ x 1 = a * v1 ∧ x 2 = 0 ∧ ρ = atLeast (min ((100 : ℝ) : WithTop ℝ) (scaleSz (surf x))) 0 ∧ t.num = 1 ∧ t.pts 0 = upd x 3 ρ ∧
      surfRound (oneFace a surf 1 U) 0 (onePool a) surfStart 0 = some (⟨t, [0], upd (fun _ => none) 0 (some ρ), 1, 0⟩, 0) ∧
      SurfRunOk (oneFace a surf 1 U) ⟨t, [0], upd (fun _ => none) 0 (some ρ), 1, 0⟩ := by
  have hE := oneFace_ok (a := a) (T := 1) hs one_pos hU
  obtain ⟨x, ex, x0, x1, x2⟩ := oneFace_dart (a := a) (surf := surf) (T := 1) (U := U) (poolTable (onePool a)) (U 0 0) (fun k => U 0 (3 * 0 + k)) v0 v1 v2 h0 h1 h2 hv
    (by simpa using e1) (by simpa using e2)
  set E := oneFace a surf 1 U with hEdef
  set ρ := atLeast (min ((100 : ℝ) : WithTop ℝ) (scaleSz (surf x))) 0 with hρ
  have hrad : surfRadius E surfStart 0 x 0 = some ρ := oneFace_radius (if_neg (by show ¬ 0 > 0; omega))
  have hρ0 : 0 ≤ ρ := (atLeast_spec _ 0 le_rfl).1
  obtain ⟨t, et, ht, hcap, hnum, hold, hnew⟩ := SmartTree.add_sphere (surfRunOk_empty E).wf (surfRunOk_empty E).cap E.rb (upd x 3 ρ) (by simpa [upd] using hρ0)
  have hround : surfRound E 0 (onePool a) surfStart 0 = some (⟨t, [0], upd (fun _ => none) 0 (some ρ), 1, 0⟩, 0) := by
    have hd : drawDarts E 0 (onePool a) surfStart 1 = some [⟨x, 0, false⟩] := by
      rw [drawDarts, drawDarts]
      simp only [surfStart]
      have ex' : sampleActiveFace E.S 0 (onePool a) (poolTable (onePool a)) (E.U 0 (3 * 0)) (fun k => E.U 0 (3 * 0 + k)) = some (x, 0) := ex
      rw [ex']
      simp only
      rw [show surfCovered E ⟨SmartTree.empty (fun _ _ => 0) id id, [], fun _ => none, 0, 0⟩ x = some false from start_uncovered x]
      rfl
    unfold surfRound
    rw [show E.T = 1 from rfl, hd]
    simp only [sizeDarts, Bool.false_eq_true, if_false, hitBy, List.any_nil, List.length_nil, hrad, List.nil_append]
    simp only [addDarts, Bool.false_eq_true, if_false]
    rw [show addTreePoint realLt 3 E.rb surfStart.tree (upd x 3 ρ) = some t from et]
    rfl
  refine ⟨x, t, ρ, x0, x1, x2, rfl, hnum, hnew, hround, ?_⟩
  rcases surfRound_spec hE (show SurfRunOk E surfStart from surfRunOk_empty E) 0 (pool := onePool a) (by simp [onePool]) (by
      obtain ⟨pool, ep, dp, -⟩ := initialPool_spec area3 E.S hE.valid [0] (by simp [hEdef, oneFace])
      rw [onePool_initial] at ep
      rw [Option.some.inj ep]; exact dp) 0 with ⟨h, -⟩ | ⟨q, h, h', -⟩
  · rw [hround] at h; simp at h
  · rw [hround] at h
    rw [← Option.some.inj h] at h'
    exact h'

theorem onePool_decodes (a : ℝ) (surf : (Nat → ℝ) → WithTop ℝ) (T : Nat) (U : Nat → Nat → ℝ) : Decodes (oneFace a surf T U).S 0 (onePool a) := by
  obtain ⟨pool, ep, dp, -⟩ := initialPool_spec area3 (oneFace a surf T U).S (fun f hf i hi => hi) [0] (by simp [oneFace])
  rw [onePool_initial] at ep
  rw [Option.some.inj ep]; exact dp

/-! ## A run that returns -/

theorem overlappingSpheres_noTree (L : ℝ) (x : Nat → ℝ) (ρ : ℝ) : overlappingSpheres noTree.store noTree.links L x ρ = some [] := if_pos rfl

/-- One sphere has no seeds. -/
theorem seeds_one {P : PointStore ℝ} {ln : Links} (hP : SphereTree P ln) (h1 : P.num = 1) {L : ℝ} (hL0 : 0 ≤ L) (hL1 : L < 1) (env : SeedEnv) {Z : SphereSet}
    (hZ : Z = ⟨P, ln, noTree.store, noTree.links, noTree.store, noTree.links⟩) : surfaceSeeds Z L env = some (P, false, SeedTree.empty, SeedTree.empty) := by
  subst hZ
  obtain ⟨l, el, -, hl, -⟩ := C28_overlapping_spheres P ln hP L hL0 hL1 (P.pts 0) (P.pts 0 3) (hP.nonneg 0 (by omega))
  have hnear : nearSpheres ⟨P, ln, noTree.store, noTree.links, noTree.store, noTree.links⟩ L 0 = some l := by
    unfold nearSpheres
    simp only [el, overlappingSpheres_noTree, List.map_nil, List.append_nil]
  have ht : seedTriples ⟨P, ln, noTree.store, noTree.links, noTree.store, noTree.links⟩ 0 l = [] := by
    unfold seedTriples
    rw [List.flatMap_eq_nil_iff]
    intro j hj
    have := (hl j hj).1
    rw [if_pos (by omega)]
  unfold surfaceSeeds
  simp only [h1, show List.range 1 = [0] from rfl, seedSphereLoop, hnear, ht, seedTripleLoop]
  rfl

/-- The hypotheses of C82 hold for a triangle with legs of length one, and `generate_surface_spheres` returns. -/
theorem oneFace_returns : ∃ E : SurfSetup, E.Ok ∧ E.T = 1 ∧ E.S.numFaces = 1 ∧ E.tol = 20 ∧ E.rmax = 100 ∧
    ∃ r up lo, surfaceSpheres E 101 1 = some (some (r, up, lo)) ∧ r.tree.num = 1 ∧ r.tree.pts 0 3 = 10 ∧ up.attr = [] ∧ lo.attr = [] := by
  have hs : ∀ x : Nat → ℝ, (0 : WithTop ℝ) ≤ ((25 : ℝ) : WithTop ℝ) := fun _ => WithTop.coe_le_coe.2 (by norm_num)
  have hU : ∀ t k : Nat, (0 : ℝ) ≤ 1 / 2 ∧ (1 / 2 : ℝ) < 1 := fun _ _ => by norm_num
  have hE := oneFace_ok (a := 1) (surf := fun _ => ((25 : ℝ) : WithTop ℝ)) (T := 1) (U := fun _ _ => 1 / 2) hs one_pos hU
  obtain ⟨x, t, ρ, x0, x1, x2, hρ, hnum, hpt, hround, hok⟩ := oneFace_first (a := 1) (surf := fun _ => ((25 : ℝ) : WithTop ℝ)) (U := fun _ _ => 1 / 2) hs hU (1 / 2) 0 (1 / 2)
    (by norm_num) le_rfl (by norm_num) (by norm_num) rfl (by norm_num)
  set E := oneFace 1 (fun _ => ((25 : ℝ) : WithTop ℝ)) 1 (fun _ _ => 1 / 2) with hEdef
  have hρ10 : ρ = 10 := by
    have h25 : scaleSz ((25 : ℝ) : WithTop ℝ) = ((10 : ℝ) : WithTop ℝ) := by
      show (((0.4 * 25 : ℝ)) : WithTop ℝ) = _
      norm_num
    rw [hρ, h25, min_eq_right (WithTop.coe_le_coe.2 (by norm_num))]
    show max (10 : ℝ) 0 = 10
    norm_num
  set r1 : SurfRun := ⟨t, [0], upd (fun _ => none) 0 (some ρ), 1, 0⟩ with hr1
  have ht : SphereTree t.spheres t.links := hok.wf.resolve_left (by show t.num ≠ 0; omega)
  have h3 : t.pts 0 3 = 10 := by rw [hpt]; simp [upd, hρ10]
  have hin : FacesIn E r1 := by
    refine ⟨fun i j hi => absurd hi (by show ¬ i < 0; omega), fun i j hi => absurd hi (by show ¬ i < 0; omega), lip_one hnum _, fun f hf => .inl ⟨0, by show 0 < t.num; omega, fun X hX => ?_⟩⟩
    show euclid 3 X (t.pts 0) < Real.sqrt (1 - (1 / 2) ^ 2) * t.pts 0 3
    have h2 : (1 / 2 : ℝ) ≤ Real.sqrt (1 - (1 / 2) ^ 2) := Real.le_sqrt_of_sq_le (by norm_num)
    have hX3 : |X 0| ≤ 1 ∧ |X 1| ≤ 1 ∧ X 2 = 0 := by
      rcases hX with rfl | rfl | rfl <;> simp [hEdef, oneFace, mkSphere]
    have hd : euclid 3 X (t.pts 0) ^ 2 ≤ 4 ^ 2 := by
      rw [euclid_sq]
      simp only [Finset.sum_range_succ, Finset.sum_range_zero, zero_add, hpt]
      have e0 : upd x 3 ρ 0 = x 0 := by simp [upd]
      have e1 : upd x 3 ρ 1 = x 1 := by simp [upd]
      have e2 : upd x 3 ρ 2 = x 2 := by simp [upd]
      rw [e0, e1, e2, x0, x1, x2, hX3.2.2]
      have := abs_le.1 hX3.1
      have := abs_le.1 hX3.2.1
      nlinarith
    have hd' : euclid 3 X (t.pts 0) ≤ 4 := by nlinarith [euclid_nonneg 3 X (t.pts 0)]
    rw [h3]
    nlinarith
  obtain ⟨c, hmps⟩ := surfMps_covered hE (pool := onePool 1) (by simp [onePool]) (onePool_decodes _ _ _ _) 100 0 0 r1 hok.wf hin (by norm_num) (by norm_num)
  have hpat : surfPatches E 101 [(1, [0])] surfStart = some (some { r1 with calls := c }) := by
    rw [surfPatches]
    simp only [hEdef, onePool_initial]
    rw [surfMps, hround]
    simp only
    rw [if_neg (by omega), hmps]
    rfl
  obtain ⟨Q, eQ, hQ⟩ := C27_isolated_unchanged E.L hE.L0 t.spheres t.links ht t.num le_rfl (fun i j hi hj hij => by
    have hi : i < t.num := hi
    have hj : j < t.num := hj
    omega)
  obtain ⟨P, sh, eP, hsb, hP, -⟩ := C27_lipschitz_tree_partial E.L hE.L0 t.spheres t.links ht t.num le_rfl false
  obtain ⟨rfl, rfl⟩ : P = Q ∧ sh = false := by rw [eP] at eQ; simpa using eQ
  have hPn : P.num = 1 := hsb.num.trans hnum
  have hfin : surfFinish E { r1 with calls := c } = some ({ r1 with calls := c, seedings := 1 }.withPts P, some (SeedTree.empty, SeedTree.empty)) := by
    unfold surfFinish
    rw [show lipTree ({ r1 with calls := c } : SurfRun).tree.links E.L ({ r1 with calls := c } : SurfRun).tree.num ({ r1 with calls := c } : SurfRun).tree.spheres false = some (P, false) from eP]
    simp only
    rw [seeds_one hP hPn hE.L0 hE.L1 _ (Z := E.spheres P r1.tree.links) rfl]
    simp only
    have hv : ∀ n ns (rr : Nat → ℝ), validateSurface n ns (sphereTriples SeedTree.empty) rr = some ⟨true, rr⟩ := fun n ns rr => rfl
    rw [hv]
    simp only [if_true]
    rw [setRadii_self P (fun q => P.pts q 3) P.num fun i _ => (hP.radius i).symm]
  have hchk : surfCheck E { r1 with calls := c } = some ({ r1 with calls := c, seedings := 1 }.withPts P, some (SeedTree.empty, SeedTree.empty)) := by
    unfold surfCheck
    rw [if_pos (by norm_num [hEdef, oneFace])]
    rw [show narrowSurf E ({ r1 with calls := c } : SurfRun).tree.links ({ r1 with calls := c } : SurfRun).ids ({ r1 with calls := c } : SurfRun).tree.spheres
      ({ r1 with calls := c } : SurfRun).tree.num = some (t.spheres, false) from narrowSurf_spec hE (fun j f hj => (hok.on j f hj).1) ht hok.len _ le_rfl]
    exact hfin
  refine ⟨E, hE, rfl, rfl, rfl, rfl, { r1 with calls := c, seedings := 1 }.withPts P, SeedTree.empty, SeedTree.empty, ?_, hnum, ?_, rfl, rfl⟩
  swap
  · show P.pts 0 3 = 10
    rw [hQ 0 (by show 0 < t.num; omega)]
    exact h3
  have hp : patchLoop 1 100 0 100 = some [(1, [0])] := by rfl
  rw [surfaceSpheres, surfLoop, show E.S.numFaces = 1 from rfl, hp]
  simp only
  rw [show surfPatches E 101 [(1, [0])] ⟨SmartTree.empty (fun _ _ => 0) id id, [], fun _ => none, 0, 0⟩ = _ from hpat]
  simp only
  rw [hchk]

/-- **C82, `R_MIN` is no minimum.** A run with `R_MIN = 20` and `R_MAX = 100` returns a sphere of radius 10. -/
theorem C82_minimum_radius_false : ¬ ∀ (E : SurfSetup) (mps fuel : Nat) (r : SurfRun) (up lo : SeedTree), E.Ok → E.tol ≤ E.rmax → surfaceSpheres E mps fuel = some (some (r, up, lo)) →
    ∀ i, i < r.tree.num → E.tol ≤ r.tree.pts i 3 := by
  intro h
  obtain ⟨E, hE, -, -, ht, hm, r, up, lo, e, hn, hr, -⟩ := oneFace_returns
  have := h E 101 1 r up lo hE (by rw [ht, hm]; norm_num) e 0 (by omega)
  rw [hr, ht] at this
  norm_num at this

/-- **C82, seeds may be missing.** A surface inside one sphere is accepted as watertight without any seed. -/
theorem C82_some_seed_false : ¬ ∀ (E : SurfSetup) (mps fuel : Nat) (r : SurfRun) (up lo : SeedTree), E.Ok → surfaceSpheres E mps fuel = some (some (r, up, lo)) → lo.attr ≠ [] := by
  intro h
  obtain ⟨E, hE, -, -, -, -, r, up, lo, e, -, -, -, hlo⟩ := oneFace_returns
  exact h E 101 1 r up lo hE e hlo

/-! ## The radius of the previous dart -/

/-- **C82, stale radius.** The spheres that limit a new radius are looked for within the radius of the previous dart: the second sphere of this run covers the centre of the first
one and breaks the Lipschitz condition with it, although both limits are there to prevent this. -/
theorem C82_stale_radius_bug : ∃ E : SurfSetup, E.Ok ∧ E.T = 1 ∧ E.rmin = 0 ∧ ∃ pool r1 r2 m1 m2, initialPool area3 E.S [0] = some pool ∧
    surfRound E 0 pool surfStart 0 = some (r1, m1) ∧ surfRound E 0 pool r1 m1 = some (r2, m2) ∧ r2.tree.num = 2 ∧
    euclid 3 (r2.tree.pts 1) (r2.tree.pts 0) < Real.sqrt (1 - E.ratio ^ 2) * r2.tree.pts 1 3 ∧
    r2.tree.pts 0 3 + E.L * euclid 3 (r2.tree.pts 1) (r2.tree.pts 0) < r2.tree.pts 1 3 := by
  set surf : (Nat → ℝ) → WithTop ℝ := fun x => if x 0 < 25 then ((5 / 2 : ℝ) : WithTop ℝ) else ⊤ with hsurf
  set U : Nat → Nat → ℝ := fun _ k => if k < 3 then 0 else 1 / 2 with hUdef
  have hs : ∀ x, 0 ≤ surf x := fun x => by
    simp only [hsurf]; split
    · exact WithTop.coe_le_coe.2 (by norm_num)
    · exact le_top
  have hU : ∀ t k : Nat, 0 ≤ U t k ∧ U t k < 1 := fun t k => by
    simp only [hUdef]; split <;> norm_num
  have hE := oneFace_ok (a := 100) (T := 1) hs one_pos hU
  obtain ⟨x, t, ρ, x0, x1, x2, hρ, hnum, hpt, hround, hok⟩ := oneFace_first (a := 100) hs hU 0 0 1 le_rfl le_rfl (by norm_num) (by norm_num) (by simp [hUdef]) (by simp [hUdef])
  have hρ1 : ρ = 1 := by
    have h25 : scaleSz (surf x) = ((1 : ℝ) : WithTop ℝ) := by
      simp only [hsurf]
      rw [if_pos (by rw [x0]; norm_num)]
      show (((0.4 * (5 / 2) : ℝ)) : WithTop ℝ) = _
      norm_num
    rw [hρ, h25, min_eq_right (WithTop.coe_le_coe.2 (by norm_num))]
    show max (1 : ℝ) 0 = 1
    norm_num
  obtain ⟨y, ey, y0, y1, y2⟩ := oneFace_dart (a := 100) (surf := surf) (T := 1) (U := U) (poolTable (onePool 100)) (U 0 (3 * 1)) (fun k => U 0 (3 * 1 + k)) (1 / 2) 0 (1 / 2)
    (by norm_num) le_rfl (by norm_num) (by norm_num) (by simp [hUdef]) (by simp [hUdef])
  set E := oneFace 100 surf 1 U with hEdef
  set r1 : SurfRun := ⟨t, [0], upd (fun _ => none) 0 (some ρ), 1, 0⟩ with hr1
  have ht : SphereTree t.spheres t.links := hok.wf.resolve_left (by show t.num ≠ 0; omega)
  have h3 : t.pts 0 3 = 1 := by rw [hpt]; simp [upd, hρ1]
  have hdist : euclid 3 y (t.pts 0) = 50 := by
    have : euclid 3 y (t.pts 0) ^ 2 = 50 ^ 2 := by
      rw [euclid_sq]
      simp only [Finset.sum_range_succ, Finset.sum_range_zero, zero_add, hpt]
      have e0 : upd x 3 ρ 0 = x 0 := by simp [upd]
      have e1 : upd x 3 ρ 1 = x 1 := by simp [upd]
      have e2 : upd x 3 ρ 2 = x 2 := by simp [upd]
      rw [e0, e1, e2, x0, x1, x2, y0, y1, y2]
      norm_num
    nlinarith [euclid_nonneg 3 y (t.pts 0)]
  have hone : ∀ s, s < t.spheres.num → s = 0 := fun s hs => by have hs : s < t.num := hs; omega
  have hcov : surfCovered E r1 y = some false := by
    obtain ⟨b, eb, hb, -⟩ := C24_point_covered t.spheres t.links ht E.L E.ratio hE.L0 hE.L1 hE.ratio0 hE.ratio1 y
    have hbf : b = false := by
      by_contra h
      obtain ⟨s, hs, hd⟩ := hb (by simpa using h)
      rw [hone s hs] at hd
      have hd : euclid 3 y (t.pts 0) < (Real.sqrt (1 - E.ratio ^ 2) + 1.1e-8) * t.pts 0 3 + 1e-8 := hd
      have h1 : Real.sqrt (1 - E.ratio ^ 2) ≤ 1 := Real.sqrt_le_one.2 (by nlinarith [sq_nonneg E.ratio])
      rw [hdist, h3] at hd
      norm_num at hd
      linarith
    unfold surfCovered
    rw [show pointCovered E.corner.store E.corner.links E.L 0 y = some false from covered_noTree _ _ _]
    simp only
    rw [show pointCovered E.edge.store E.edge.links E.L 0 y = some false from covered_noTree _ _ _]
    simp only
    rw [show pointCovered r1.tree.spheres r1.tree.links E.L E.ratio y = some b from eb, hbf]
  have hnear : nearSurfDart E r1 0 y = some [] := by
    obtain ⟨l, el, -, hl, -⟩ := C28_overlapping_spheres t.spheres t.links ht E.L hE.L0 hE.L1 y ρ (by rw [hρ1]; norm_num)
    have hnil : l = [] := by
      rw [List.eq_nil_iff_forall_not_mem]
      intro s hs
      obtain ⟨h1, h2⟩ := hl s hs
      rw [hone s h1] at h2
      have h2 : euclid 3 y (t.pts 0) < ρ + t.pts 0 3 + 1e-10 := h2
      rw [hdist, h3, hρ1] at h2
      norm_num at h2
    unfold nearSurfDart
    rw [if_pos (by show t.num > 0; omega)]
    simp only [hr1, upd, if_true]
    rw [el, hnil]
  have hrad : surfRadius E r1 0 y 0 = some 100 := by
    rw [hEdef, oneFace_radius hnear]
    have : scaleSz (surf y) = ⊤ := by
      simp only [hsurf]
      rw [if_neg (by rw [y0]; norm_num)]
      rfl
    rw [this, min_top_right]
    show some (max (100 : ℝ) 0) = some 100
    norm_num
  obtain ⟨t', et, ht', hcap, hnum', hold, hnew⟩ := SmartTree.add_sphere hok.wf hok.cap E.rb (upd y 3 100) (by simp [upd])
  have hround2 : surfRound E 0 (onePool 100) r1 0 = some (⟨t', [0, 0], upd (upd (fun _ => none) 0 (some ρ)) 0 (some 100), 2, 0⟩, 0) := by
    have hd : drawDarts E 0 (onePool 100) r1 1 = some [⟨y, 0, false⟩] := by
      rw [drawDarts, drawDarts]
      simp only
      have ey' : sampleActiveFace E.S 0 (onePool 100) (poolTable (onePool 100)) (E.U 0 (3 * r1.calls)) (fun k => E.U 0 (3 * r1.calls + k)) = some (y, 0) := ey
      rw [ey']
      simp only [hcov, List.nil_append]
    unfold surfRound
    rw [show E.T = 1 from rfl, hd]
    simp only [sizeDarts, Bool.false_eq_true, if_false, hitBy, List.any_nil, List.length_nil, hrad, List.nil_append]
    simp only [addDarts, Bool.false_eq_true, if_false]
    rw [show addTreePoint realLt 3 E.rb r1.tree (upd y 3 100) = some t' from et]
    rfl
  have hp0 : t'.pts 0 = t.pts 0 := hold 0 (by show 0 < t.num; omega)
  have hp1 : t'.pts 1 = upd y 3 100 := by
    have : t'.pts t.num = upd y 3 100 := hnew
    rwa [hnum] at this
  have hnum' : t'.num = t.num + 1 := hnum'
  have hd1 : euclid 3 (t'.pts 1) (t'.pts 0) = 50 := by
    rw [hp0, hp1, ← hdist]
    exact euclid_congr (fun d hd => by simp [upd, show d ≠ 3 by omega]) fun _ _ => rfl
  have hq3 : t'.pts 1 3 = 100 := by rw [hp1]; simp [upd]
  refine ⟨E, hE, rfl, rfl, onePool 100, r1, _, 0, 0, onePool_initial _ _ _ _, hround, hround2, by show t'.num = 2; omega, ?_, ?_⟩
  · show euclid 3 (t'.pts 1) (t'.pts 0) < Real.sqrt (1 - (1 / 2) ^ 2) * t'.pts 1 3
    have h2 : (3 / 4 : ℝ) ≤ Real.sqrt (1 - (1 / 2) ^ 2) := Real.le_sqrt_of_sq_le (by norm_num)
    rw [hd1, hq3]; linarith
  · show t'.pts 0 3 + 1 / 2 * euclid 3 (t'.pts 1) (t'.pts 0) < t'.pts 1 3
    rw [hd1, hq3, hp0, h3]; norm_num

/-! ## More than one thread -/

/-- **C82, uninitialised read.** With two threads, even one after the other, a thread whose first dart was covered by the new sphere of the other one reads its radius before it is
written. -/
theorem C82_threads_undefined : ∃ E : SurfSetup, E.Ok ∧ E.T = 2 ∧ ∀ mps fuel, surfaceSpheres E (mps + 2) (fuel + 1) = none := by
  set surf : (Nat → ℝ) → WithTop ℝ := fun _ => ((5 / 2 : ℝ) : WithTop ℝ) with hsurf
  set U : Nat → Nat → ℝ := fun t k => if t = 1 ∧ 3 ≤ k then 1 / 2 else 0 with hUdef
  have hs : ∀ x, 0 ≤ surf x := fun x => WithTop.coe_le_coe.2 (by norm_num)
  have hU : ∀ t k : Nat, 0 ≤ U t k ∧ U t k < 1 := fun t k => by
    simp only [hUdef]; split <;> norm_num
  have hE := oneFace_ok (a := 100) (T := 2) hs (by norm_num) hU
  obtain ⟨x, ex, x0, x1, x2⟩ := oneFace_dart (a := 100) (surf := surf) (T := 2) (U := U) (poolTable (onePool 100)) (U 0 (3 * 0)) (fun k => U 0 (3 * 0 + k)) 0 0 1
    le_rfl le_rfl (by norm_num) (by norm_num) (by simp [hUdef]) (by simp [hUdef])
  obtain ⟨x', ex', x0', x1', x2'⟩ := oneFace_dart (a := 100) (surf := surf) (T := 2) (U := U) (poolTable (onePool 100)) (U 1 (3 * 0)) (fun k => U 1 (3 * 0 + k)) 0 0 1
    le_rfl le_rfl (by norm_num) (by norm_num) (by simp [hUdef]) (by simp [hUdef])
  obtain ⟨y, ey, y0, y1, y2⟩ := oneFace_dart (a := 100) (surf := surf) (T := 2) (U := U) (poolTable (onePool 100)) (U 0 (3 * 1)) (fun k => U 0 (3 * 1 + k)) 0 0 1
    le_rfl le_rfl (by norm_num) (by norm_num) (by simp [hUdef]) (by simp [hUdef])
  obtain ⟨y', ey', y0', y1', y2'⟩ := oneFace_dart (a := 100) (surf := surf) (T := 2) (U := U) (poolTable (onePool 100)) (U 1 (3 * 1)) (fun k => U 1 (3 * 1 + k)) (1 / 2) 0 (1 / 2)
    (by norm_num) le_rfl (by norm_num) (by norm_num) (by simp [hUdef]) (by simp [hUdef])
  set E := oneFace 100 surf 2 U with hEdef
  have hsz : ∀ z, atLeast (min ((100 : ℝ) : WithTop ℝ) (scaleSz (surf z))) 0 = 1 := fun z => by
    have h25 : scaleSz (surf z) = ((1 : ℝ) : WithTop ℝ) := by
      show (((0.4 * (5 / 2) : ℝ)) : WithTop ℝ) = _
      norm_num
    rw [h25, min_eq_right (WithTop.coe_le_coe.2 (by norm_num))]
    show max (1 : ℝ) 0 = 1
    norm_num
  have hrad : surfRadius E surfStart 0 x 0 = some 1 := by
    have := oneFace_radius (a := 100) (surf := surf) (T := 2) (U := U) (r := surfStart) (t := 0) (x := x) (f := 0) (if_neg (by show ¬ 0 > 0; omega))
    rwa [hsz x] at this
  have hsq : (3 / 4 : ℝ) ≤ Real.sqrt (1 - (1 / 2) ^ 2) := Real.le_sqrt_of_sq_le (by norm_num)
  have hd0 : ∀ z : Nat → ℝ, z 0 = 100 * 0 → z 1 = 100 * 0 → z 2 = 0 → euclid 3 z (upd x 3 1) = 0 := fun z z0 z1 z2 => by
    refine (euclid_congr (x' := x) (y' := x) (fun d hd => ?_) fun d hd => ?_).trans (euclid_self 3 x)
    · interval_cases d
      exacts [z0.trans x0.symm, z1.trans x1.symm, z2.trans x2.symm]
    · simp [upd, show d ≠ 3 by omega]
  obtain ⟨t, et, ht, hcap, hnum, hold, hnew⟩ := SmartTree.add_sphere (surfRunOk_empty E).wf (surfRunOk_empty E).cap E.rb (upd x 3 1) (by simp [upd])
  have hnum : t.num = 1 := hnum
  have hpt : t.pts 0 = upd x 3 1 := hnew
  set r1 : SurfRun := ⟨t, [0], upd (fun _ => none) 0 (some 1), 1, 0⟩ with hr1
  have hround : surfRound E 0 (onePool 100) surfStart 0 = some (r1, 1) := by
    have hd : drawDarts E 0 (onePool 100) surfStart 2 = some [⟨x, 0, false⟩, ⟨x', 0, false⟩] := by
      rw [drawDarts, drawDarts, drawDarts]
      simp only
      rw [show sampleActiveFace E.S 0 (onePool 100) (poolTable (onePool 100)) (E.U 0 (3 * surfStart.calls)) (fun k => E.U 0 (3 * surfStart.calls + k)) = some (x, 0) from ex]
      simp only [show ∀ z, surfCovered E surfStart z = some false from fun z => start_uncovered z]
      rw [show sampleActiveFace E.S 0 (onePool 100) (poolTable (onePool 100)) (E.U 1 (3 * surfStart.calls)) (fun k => E.U 1 (3 * surfStart.calls + k)) = some (x', 0) from ex']
      rfl
    have hhit : hitBy E [⟨upd x 3 1, 0, false⟩] x' = true := by
      have := (C24_point_covered_by x' (upd x 3 1) E.ratio hE.ratio0 hE.ratio1 (by simp [upd])).2 (by
        rw [hd0 x' x0' x1' x2']
        show 0 < Real.sqrt (1 - (1 / 2) ^ 2) * upd x 3 1 3
        rw [show upd x 3 1 3 = (1 : ℝ) by simp [upd]]
        linarith)
      simp [hitBy, this]
    unfold surfRound
    rw [show E.T = 2 from rfl, hd]
    simp only [sizeDarts, Bool.false_eq_true, if_false, show hitBy E [] x = false from rfl, List.length_nil, hrad, List.nil_append, hhit, if_true]
    simp only [List.cons_append, List.nil_append, addDarts, Bool.false_eq_true, if_false, if_true]
    rw [show addTreePoint realLt 3 E.rb surfStart.tree (upd x 3 1) = some t from et]
    rfl
  have htree : SphereTree t.spheres t.links := ht
  have hone : ∀ s, s < t.spheres.num → s = 0 := fun s hs => by have hs : s < t.num := hs; omega
  have h3 : t.pts 0 3 = 1 := by rw [hpt]; simp [upd]
  have hcov : ∀ z b, pointCovered t.spheres t.links E.L E.ratio z = some b → surfCovered E r1 z = some b := fun z b eb => by
    unfold surfCovered
    rw [show pointCovered E.corner.store E.corner.links E.L 0 z = some false from covered_noTree _ _ _]
    simp only
    rw [show pointCovered E.edge.store E.edge.links E.L 0 z = some false from covered_noTree _ _ _]
    exact eb
  have hcy : surfCovered E r1 y = some true := by
    obtain ⟨b, eb, -, hb⟩ := C24_point_covered t.spheres t.links htree E.L E.ratio hE.L0 hE.L1 hE.ratio0 hE.ratio1 y
    refine hcov y true ?_
    rw [eb, hb (lip_one hnum _) ⟨0, by show 0 < t.num; omega, ?_⟩]
    show euclid 3 y (t.pts 0) < Real.sqrt (1 - (1 / 2) ^ 2) * t.pts 0 3
    rw [h3, hpt, hd0 y y0 y1 y2]
    linarith
  have hcy' : surfCovered E r1 y' = some false := by
    obtain ⟨b, eb, hb, -⟩ := C24_point_covered t.spheres t.links htree E.L E.ratio hE.L0 hE.L1 hE.ratio0 hE.ratio1 y'
    have hbf : b = false := by
      by_contra h
      obtain ⟨s, hs, hd⟩ := hb (by simpa using h)
      rw [hone s hs] at hd
      have hd : euclid 3 y' (t.pts 0) < (Real.sqrt (1 - E.ratio ^ 2) + 1.1e-8) * t.pts 0 3 + 1e-8 := hd
      have h1 : Real.sqrt (1 - E.ratio ^ 2) ≤ 1 := Real.sqrt_le_one.2 (by nlinarith [sq_nonneg E.ratio])
      have h50 : euclid 3 y' (t.pts 0) = 50 := by
        have : euclid 3 y' (t.pts 0) ^ 2 = 50 ^ 2 := by
          rw [euclid_sq]
          simp only [Finset.sum_range_succ, Finset.sum_range_zero, zero_add, hpt]
          have e0 : upd x 3 (1 : ℝ) 0 = x 0 := by simp [upd]
          have e1 : upd x 3 (1 : ℝ) 1 = x 1 := by simp [upd]
          have e2 : upd x 3 (1 : ℝ) 2 = x 2 := by simp [upd]
          rw [e0, e1, e2, x0, x1, x2, y0', y1', y2']
          norm_num
        nlinarith [euclid_nonneg 3 y' (t.pts 0)]
      rw [h50, h3] at hd
      norm_num at hd
      linarith
    exact hcov y' false (by rw [eb, hbf])
  have hround2 : surfRound E 0 (onePool 100) r1 1 = none := by
    have hd : drawDarts E 0 (onePool 100) r1 2 = some [⟨y, 0, true⟩, ⟨y', 0, false⟩] := by
      rw [drawDarts, drawDarts, drawDarts]
      simp only
      rw [show sampleActiveFace E.S 0 (onePool 100) (poolTable (onePool 100)) (E.U 0 (3 * r1.calls)) (fun k => E.U 0 (3 * r1.calls + k)) = some (y, 0) from ey]
      simp only [hcy]
      rw [show sampleActiveFace E.S 0 (onePool 100) (poolTable (onePool 100)) (E.U 1 (3 * r1.calls)) (fun k => E.U 1 (3 * r1.calls + k)) = some (y', 0) from ey']
      simp only [hcy']
      rfl
    have hnear : nearSurfDart E r1 1 y' = none := by
      unfold nearSurfDart
      rw [if_pos (by show t.num > 0; omega)]
      rfl
    have hnone : surfRadius E r1 1 y' 0 = none := by
      unfold surfRadius
      rw [hnear]
      split
      · contradiction
      · rfl
    unfold surfRound
    rw [show E.T = 2 from rfl, hd]
    simp only [sizeDarts, Bool.false_eq_true, if_false, if_true, List.nil_append, hitBy, List.any_cons, List.any_nil, Bool.not_true, Bool.false_and, Bool.or_false, List.length_cons, List.length_nil, Nat.zero_add, hnone]
  refine ⟨E, hE, rfl, fun mps fuel => ?_⟩
  have hp : patchLoop 1 100 0 100 = some [(1, [0])] := by rfl
  rw [surfaceSpheres, surfLoop, show E.S.numFaces = 1 from rfl, hp]
  simp only
  rw [surfPatches]
  simp only [hEdef, onePool_initial]
  rw [surfMps, show surfRound (oneFace 100 surf 2 U) 0 (onePool 100) ⟨SmartTree.empty (fun _ _ => 0) id id, [], fun _ => none, 0, 0⟩ 0 = _ from hround]
  simp only
  rw [if_neg (by omega), surfMps, hround2]

/-! ## Narrow regions -/

/-- **C83, in part.** The validation of the sizes in narrow regions is never undefined and never enlarges a sphere: it leaves every sphere as it is. What is missing is the limit itself,
which does not hold (`C83_narrow_regions_false`). -/
theorem C83_narrow_regions_partial (E : SurfSetup) (hE : E.Ok) (P : PointStore ℝ) (ln : Links) (hP : SphereTree P ln) (ids : List Nat) (hlen : ids.length = P.num)
    (hids : ∀ (j f : Nat), ids[j]? = some f → f < E.S.numFaces) : narrowSurf E ln ids P P.num = some (P, false) :=
  narrowSurf_spec hE hids hP hlen _ le_rfl

/-- Face `f` lies across from the point `x`, at `q`: the closest point of the face, straight below `x`. -/
structure Across (S : PoolSurface (Nat → ℝ)) (f : Nat) (x q : Nat → ℝ) : Prop where
  inside : InTriangle (S.point (S.corner f 0)) (S.point (S.corner f 1)) (S.point (S.corner f 2)) q
  closest : ∀ y, InTriangle (S.point (S.corner f 0)) (S.point (S.corner f 1)) (S.point (S.corner f 2)) y → euclid 3 x q ≤ euclid 3 x y
  straight : ∀ k, k < 3 → dot3 (toV3 fun d => x d - q d) (toV3 fun d => S.point (S.corner f k) d - q d) = 0

/-- Two parallel triangles at distance one. -/
noncomputable def twoSheets : SurfSetup :=
  { oneFace 10 (fun _ => ⊤) 1 (fun _ _ => 0) with
    S := ⟨6, fun i => if i = 0 then mkSphere 10 0 0 0 else if i = 1 then mkSphere 0 10 0 0 else if i = 2 then mkSphere 0 0 0 0 else if i = 3 then mkSphere 10 0 1 0
      else if i = 4 then mkSphere 0 10 1 0 else mkSphere 0 0 1 0, 2, fun f i => 3 * f + i⟩
    tol := 1 / 10 }

theorem twoSheets_ok : twoSheets.Ok := by
  have h := oneFace_ok (a := 10) (surf := fun _ => ⊤) (T := 1) (U := fun _ _ => 0) (fun _ => le_top) one_pos (fun _ _ => by norm_num)
  exact ⟨fun f hf i hi => by
      have hf : f < 2 := hf
      show 3 * f + i < 6
      omega, by show 0 < 2; omega, h.edge, h.corner, h.L0, h.L1, h.ratio0, h.ratio1, h.rmax, h.rmin, h.T, h.U, fun x _ _ => h.surf x 0 Nat.one_pos, h.cloud, h.size, h.hm⟩

/-- **C83, false of the code.** A sphere is not limited by a face across from it, although the validation of the sizes in narrow regions is there for it. -/
theorem C83_narrow_regions_false : ¬ ∀ (E : SurfSetup) (P : PointStore ℝ) (ln : Links) (ids : List Nat) (Q : PointStore ℝ) (sh : Bool), E.Ok → SphereTree P ln → ids.length = P.num →
    (∀ (j f : Nat), ids[j]? = some f → OnItsFace E (P.pts j) f) → narrowSurf E ln ids P P.num = some (Q, sh) →
    ∀ (i j fi fj : Nat) (q : Nat → ℝ), ids[i]? = some fi → ids[j]? = some fj → fi ≠ fj → euclid 3 (P.pts i) (P.pts j) < P.pts i 3 + P.pts j 3 → Across E.S fj (P.pts i) q →
      E.tol ≤ 0.4 * euclid 3 (P.pts i) q → Q.pts i 3 ≤ max (0.4 * euclid 3 (P.pts i) q) E.rmin * (1 + 1e-8) := by
  intro h
  obtain ⟨P, ln, hP, hn, hp⟩ := SphereTree.exists [mkSphere 1 1 0 2, mkSphere 1 1 1 2] (by simp) (by
    intro x hx
    simp only [List.mem_cons, List.not_mem_nil, or_false] at hx
    rcases hx with rfl | rfl <;> simp [mkSphere])
  have hn : P.num = 2 := hn
  have p0 : P.pts 0 = mkSphere 1 1 0 2 := hp 0 (by simp)
  have p1 : P.pts 1 = mkSphere 1 1 1 2 := hp 1 (by simp)
  have hd : euclid 3 (P.pts 0) (P.pts 1) = 1 := by
    rw [p0, p1]; exact euclid_mk (by norm_num) (by norm_num)
  have hc : ∀ (f : Nat) (z : ℝ), (f = 0 ∧ z = 0) ∨ (f = 1 ∧ z = 1) →
      twoSheets.S.point (twoSheets.S.corner f 0) = mkSphere 10 0 z 0 ∧ twoSheets.S.point (twoSheets.S.corner f 1) = mkSphere 0 10 z 0 ∧
        twoSheets.S.point (twoSheets.S.corner f 2) = mkSphere 0 0 z 0 := by
    rintro f z (⟨rfl, rfl⟩ | ⟨rfl, rfl⟩) <;> exact ⟨rfl, rfl, rfl⟩
  have hin : ∀ (f : Nat) (z : ℝ), (f = 0 ∧ z = 0) ∨ (f = 1 ∧ z = 1) →
      InTriangle (twoSheets.S.point (twoSheets.S.corner f 0)) (twoSheets.S.point (twoSheets.S.corner f 1)) (twoSheets.S.point (twoSheets.S.corner f 2)) (mkSphere 1 1 z 0) := by
    intro f z hfz
    obtain ⟨e0, e1, e2⟩ := hc f z hfz
    rw [e0, e1, e2]
    refine ⟨1 / 10, 1 / 10, 8 / 10, by norm_num, by norm_num, by norm_num, by norm_num, fun d => ?_⟩
    simp only [mkSphere]
    split_ifs <;> ring
  have hsize : ∀ y f, SurfSize twoSheets y f 2 := fun y f => by
    refine ⟨?_, fun h e => ?_, fun h e => ?_, fun k hk => absurd hk (by show ¬ k < 0; omega), fun h e => ?_⟩
    · show (2 : ℝ) ≤ max 100 0
      norm_num
    all_goals simp [twoSheets, oneFace] at e
  have hout : ∀ y, OutsideTree noTree twoSheets.L y := fun y _ s hs => absurd hs (by show ¬ s < 0; omega)
  have hq : euclid 3 (P.pts 0) (mkSphere 1 1 1 0) = 1 := by
    rw [p0]; exact euclid_mk (by norm_num) (by norm_num)
  have hface : ∀ (j f : Nat), ([0, 1] : List Nat)[j]? = some f → OnItsFace twoSheets (P.pts j) f := by
    intro j f hj
    have hj2 : j < 2 := by
      by_contra hh
      rw [List.getElem?_eq_none (by simp; omega)] at hj
      simp at hj
    interval_cases j
    · obtain rfl : 0 = f := by simpa using hj
      refine ⟨by show 0 < 2; omega, mkSphere 1 1 0 0, hin 0 0 (.inl ⟨rfl, rfl⟩), fun d hd => ?_, ?_, hout _, hout _⟩
      · rw [p0]; interval_cases d <;> rfl
      · rw [p0]; exact hsize _ _
    · obtain rfl : 1 = f := by simpa using hj
      refine ⟨by show 1 < 2; omega, mkSphere 1 1 1 0, hin 1 1 (.inr ⟨rfl, rfl⟩), fun d hd => ?_, ?_, hout _, hout _⟩
      · rw [p1]; interval_cases d <;> rfl
      · rw [p1]; exact hsize _ _
  have := h twoSheets P ln [0, 1] P false twoSheets_ok hP hn.symm hface (C83_narrow_regions_partial _ twoSheets_ok P ln hP [0, 1] hn.symm fun j f hj => (hface j f hj).1) 0 1 0 1 (mkSphere 1 1 1 0) rfl rfl
    (by omega) (by rw [hd, p0, p1]; simp [mkSphere]; norm_num) ⟨hin 1 1 (.inr ⟨rfl, rfl⟩), fun y hy => ?_, fun k hk => ?_⟩ ?_
  · rw [hq, p0] at this
    have : (2 : ℝ) ≤ max (0.4 * 1) 0 * (1 + 1e-8) := this
    norm_num at this
  · obtain ⟨u, v, w, hu, hv, hw, hs, hy⟩ := hy
    obtain ⟨e0, e1, e2⟩ := hc 1 1 (.inr ⟨rfl, rfl⟩)
    have y2 : y 2 = 1 := by
      rw [hy 2, e0, e1, e2]
      simp only [mkSphere]
      norm_num
      linarith
    have : 1 ≤ euclid 3 (P.pts 0) y ^ 2 := by
      rw [euclid_sq, p0]
      simp only [Finset.sum_range_succ, Finset.sum_range_zero, zero_add]
      rw [y2, show mkSphere 1 1 0 2 2 = 0 from rfl]
      nlinarith [sq_nonneg (mkSphere 1 1 0 2 0 - y 0), sq_nonneg (mkSphere 1 1 0 2 1 - y 1)]
    rw [hq]
    nlinarith [euclid_nonneg 3 (P.pts 0) y]
  · obtain ⟨e0, e1, e2⟩ := hc 1 1 (.inr ⟨rfl, rfl⟩)
    interval_cases k
    · rw [e0, p0]; simp [dot3, toV3, mkSphere]
    · rw [e1, p0]; simp [dot3, toV3, mkSphere]
    · rw [e2, p0]; simp [dot3, toV3, mkSphere]
  · rw [hq]
    show (1 / 10 : ℝ) ≤ 0.4 * 1
    norm_num

/-- The hypotheses of `C82_no_sphere_undefined`: a triangle inside a corner sphere. -/
example : ∃ E : SurfSetup, E.Ok ∧ E.corner.store.num = 1 ∧ surfaceSpheres E 100 1 = none := by
  obtain ⟨P, ln, hP, hn, hp⟩ := SphereTree.exists [mkSphere 0 0 0 2] (by simp) (by
    intro x hx
    simp only [List.mem_cons, List.not_mem_nil, or_false] at hx
    rw [hx]; simp [mkSphere])
  have hn : P.num = 1 := hn
  have p0 : P.pts 0 = mkSphere 0 0 0 2 := hp 0 (by simp)
  have h := oneFace_ok (a := 1) (surf := fun _ => ⊤) (T := 1) (U := fun _ _ => 0) (fun _ => le_top) one_pos (fun _ _ => by norm_num)
  have hE : SurfSetup.Ok { oneFace 1 (fun _ => ⊤) 1 (fun _ _ => 0) with corner := ⟨P, ln⟩ } :=
    ⟨h.valid, h.some_face, h.edge, .inr hP, h.L0, h.L1, h.ratio0, h.ratio1, h.rmax, h.rmin, h.T, h.U, h.surf, h.cloud, h.size, h.hm⟩
  refine ⟨_, hE, hn, C82_no_sphere_undefined _ hE (fun i j hi => absurd hi (by show ¬ i < 0; omega)) (lip_one hn _) (fun f hf => ⟨⟨P, ln⟩, 0, .inr rfl, by show 0 < P.num; omega, fun i hi => ?_⟩)
    100 0 le_rfl⟩
  show euclid 3 _ (P.pts 0) < P.pts 0 3
  rw [p0]
  show _ < (2 : ℝ)
  interval_cases i
  · exact (euclid_mk (w := 1) zero_le_one (by norm_num)).trans_lt (by norm_num)
  · exact (euclid_mk (w := 1) zero_le_one (by norm_num)).trans_lt (by norm_num)
  · exact (euclid_mk (w := 0) le_rfl (by norm_num)).trans_lt (by norm_num)

end VoroCrust
