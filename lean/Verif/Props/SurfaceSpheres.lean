import Verif.Model.SurfaceSpheres
import Verif.Props.EdgeSpheres
import Verif.Props.SeedRun
import Verif.Props.Mesh

/-! # Property C82: surface spheres cover the surface -/

namespace VoroCrust

/-! ## What the properties say -/

/-- What the code relies on: faces inside the point array, sphere trees, answers of the queries, constants in their ranges, at least one thread. -/
structure SurfSetup.Ok (E : SurfSetup) : Prop where
  valid : E.S.Valid 3
  some_face : 0 < E.S.numFaces
  edge : E.edge.Wf
  corner : E.corner.Wf
  L0 : 0 ≤ E.L
  L1 : E.L < 1
  ratio0 : 0 ≤ E.ratio
  ratio1 : E.ratio < 1
  rmax : 0 ≤ E.rmax
  rmin : 0 ≤ E.rmin
  T : 0 < E.T
  U : ∀ t k, 0 ≤ E.U t k ∧ E.U t k < 1
  surf : ∀ x f, f < E.S.numFaces → ∃ s, E.surf x f = some s ∧ 0 ≤ s
  cloud : ∀ x, ∃ s, E.cloud x = some s ∧ 0 ≤ s
  size : ∀ x, ∃ s, E.size x = some s ∧ 0 ≤ s
  hm : ∀ Z cs t l h, E.hm Z cs t l = some h → 0 ≤ h

/-- The corner sphere counts as non-smooth from `x` (its normal is zero): it is away from `x`, or the threshold is at least one. -/
def SurfSetup.Sees (E : SurfSetup) (x : Nat → ℝ) (k : Nat) : Prop := (E.tol < euclid 3 x (E.corner.store.pts k) ∧ 0 ≤ E.th) ∨ 1 ≤ E.th

/-- The bounds on the radius `ρ` of a sphere centred at `x` on face `f`. -/
structure SurfSize (E : SurfSetup) (x : Nat → ℝ) (f : Nat) (ρ : ℝ) : Prop where
  rmax : ρ ≤ max E.rmax E.rmin
  surf : ∀ h : ℝ, E.surf x f = some (h : WithTop ℝ) → ρ ≤ max (0.4 * h) E.rmin
  cloud : ∀ h : ℝ, E.cloud x = some (h : WithTop ℝ) → ρ ≤ max (0.4 * h) E.rmin
  corner : ∀ k, k < E.corner.store.num → E.Sees x k → ρ ≤ max (0.4 * euclid 3 x (E.corner.store.pts k)) E.rmin
  size : ∀ h : ℝ, E.size x = some (h : WithTop ℝ) → ρ ≤ max h E.rmin

theorem SurfSize.mono {E : SurfSetup} {x : Nat → ℝ} {f : Nat} {a b : ℝ} (h : SurfSize E x f b) (hab : a ≤ b) : SurfSize E x f a :=
  ⟨hab.trans h.rmax, fun t ht => hab.trans (h.surf t ht), fun t ht => hab.trans (h.cloud t ht), fun k hk hs => hab.trans (h.corner k hk hs),
    fun t ht => hab.trans (h.size t ht)⟩

/-- `x` is outside every sphere of the tree, if their radii are Lipschitz. -/
def OutsideTree (t : STree) (L : ℝ) (x : Nat → ℝ) : Prop := LipschitzRadii t.store L → ∀ s, s < t.store.num → t.store.pts s 3 ≤ euclid 3 x (t.store.pts s)

/-- The sphere is centred on the face recorded for it, outside the edge and corner spheres, and its radius obeys the bounds there. -/
def OnItsFace (E : SurfSetup) (s : Nat → ℝ) (f : Nat) : Prop :=
  f < E.S.numFaces ∧ ∃ y, InTriangle (E.S.point (E.S.corner f 0)) (E.S.point (E.S.corner f 1)) (E.S.point (E.S.corner f 2)) y ∧ (∀ d, d < 3 → s d = y d) ∧
    SurfSize E y f (s 3) ∧ OutsideTree E.edge E.L y ∧ OutsideTree E.corner E.L y

/-! ## The radius of a new sphere -/

theorem cornerLimit_spec {E : SurfSetup} (hE : E.Ok) (x : Nat → ℝ) :
    ∃ h, cornerLimit E x = some h ∧ 0 ≤ h ∧
      ∀ k, k < E.corner.store.num → E.Sees x k → h ≤ ((euclid 3 x (E.corner.store.pts k) : ℝ) : WithTop ℝ) := by
  unfold cornerLimit
  by_cases h0 : E.corner.store.num > 0
  · rw [if_pos h0]
    have hc : SphereTree E.corner.store E.corner.links := hE.corner.resolve_left (by omega)
    obtain ⟨c, b, e, h⟩ := C06_closest_is_exhaustive E.corner.store E.corner.links hc.tree
      (fun k => decide (¬ (if distance 3 x (E.corner.store.pts k) > E.tol then (0 : ℝ) else 1) > E.th)) x false ⊤ le_top
    have hsel : ∀ k, E.Sees x k → decide (¬ (if distance 3 x (E.corner.store.pts k) > E.tol then (0 : ℝ) else 1) > E.th) = true := by
      intro k hk
      rw [decide_eq_true_eq, distance_eq]
      rcases hk with ⟨h1, h2⟩ | h2
      · rw [if_pos h1]; exact not_lt.2 h2
      · split
        · exact not_lt.2 (by linarith)
        · exact not_lt.2 h2
    refine ⟨b, by rw [e], ?_, fun k hk hs => ?_⟩
    · rcases h with ⟨-, -, h, -⟩ | ⟨-, h, -⟩
      · rw [h]; exact WithTop.coe_le_coe.2 (euclid_nonneg _ _ _)
      · rw [h]; exact le_top
    · rw [hc.dim] at h
      rcases h with ⟨-, -, h, -, hall⟩ | ⟨-, h, hall⟩
      · rw [h]; exact WithTop.coe_le_coe.2 (hall k hk (hsel k hs))
      · rw [h]; exact hall k hk (hsel k hs)
  · rw [if_neg h0]
    exact ⟨⊤, rfl, le_top, fun k hk => by omega⟩

theorem atLeast_spec (sz : WithTop ℝ) (rmin : ℝ) (hr : 0 ≤ rmin) : 0 ≤ atLeast sz rmin ∧ ∀ b : ℝ, sz ≤ (b : WithTop ℝ) → atLeast sz rmin ≤ max b rmin := by
  cases sz with
  | top => exact ⟨hr, fun b hb => absurd hb (by simp)⟩
  | coe a => exact ⟨hr.trans (le_max_right _ _), fun b hb => max_le_max (WithTop.coe_le_coe.1 hb) le_rfl⟩

/-- The state of the loop. -/
structure SurfRunOk (E : SurfSetup) (r : SurfRun) : Prop where
  wf : r.tree.asSTree.Wf
  cap : r.tree.num = 0 ∨ r.tree.num < r.tree.cap
  len : r.ids.length = r.tree.num
  stale : ∀ t ρ, r.stale t = some ρ → 0 ≤ ρ
  single : E.T = 1 → 0 < r.tree.num → ∃ ρ, r.stale 0 = some ρ
  on : ∀ (i : Nat) (f : Nat), r.ids[i]? = some f → OnItsFace E (r.tree.pts i) f

/-- Undefined only with several threads, or defined with a result that satisfies `p`. -/
def FineIf (E : SurfSetup) {α : Type} (o : Option α) (p : α → Prop) : Prop := (o = none ∧ 1 < E.T) ∨ ∃ a, o = some a ∧ p a

theorem FineIf.defined {E : SurfSetup} {α : Type} {o : Option α} {p : α → Prop} (h : FineIf E o p) (hT : E.T = 1) : ∃ a, o = some a ∧ p a :=
  h.resolve_left fun h => by omega

theorem FineIf.result {E : SurfSetup} {α : Type} {o : Option α} {p : α → Prop} (h : FineIf E o p) {a : α} (e : o = some a) : p a := by
  rcases h with ⟨h, -⟩ | ⟨b, h, hp⟩
  · rw [h] at e; simp at e
  · rw [h] at e; exact Option.some.inj e ▸ hp

theorem nearSurfDart_spec {E : SurfSetup} (hE : E.Ok) {r : SurfRun} (hwf : r.tree.asSTree.Wf) (hst : ∀ t ρ, r.stale t = some ρ → 0 ≤ ρ) {t : Nat}
    (hone : E.T = 1 → 0 < r.tree.num → ∃ ρ, r.stale t = some ρ) (hT : 0 < E.T) (x : Nat → ℝ) :
    FineIf E (nearSurfDart E r t x) fun l => ∀ s ∈ l, s < r.tree.num := by
  unfold nearSurfDart
  by_cases hn : r.tree.num > 0
  · rw [if_pos hn]
    cases e : r.stale t with
    | none =>
      refine .inl ⟨rfl, ?_⟩
      by_contra h
      obtain ⟨ρ, hρ⟩ := hone (by omega) hn
      rw [e] at hρ
      simp at hρ
    | some ρ =>
      have ht : SphereTree r.tree.spheres r.tree.links := hwf.resolve_left (by show r.tree.num ≠ 0; omega)
      obtain ⟨l, el, -, hl, -⟩ := C28_overlapping_spheres r.tree.spheres r.tree.links ht E.L hE.L0 hE.L1 x ρ (hst t ρ e)
      exact .inr ⟨l, el, fun s hs => (hl s hs).1⟩
  · rw [if_neg hn]
    exact .inr ⟨[], rfl, by simp⟩

theorem surfRadius_spec {E : SurfSetup} (hE : E.Ok) {r : SurfRun} (hwf : r.tree.asSTree.Wf) (hst : ∀ t ρ, r.stale t = some ρ → 0 ≤ ρ) {t : Nat}
    (hone : E.T = 1 → 0 < r.tree.num → ∃ ρ, r.stale t = some ρ) (x : Nat → ℝ) {f : Nat} (hf : f < E.S.numFaces) :
    FineIf E (surfRadius E r t x f) fun ρ => 0 ≤ ρ ∧ SurfSize E x f ρ := by
  obtain ⟨s, es, -⟩ := hE.surf x f hf
  obtain ⟨e, ee, -⟩ := hE.cloud x
  obtain ⟨z, ez, -⟩ := hE.size x
  obtain ⟨c, ec, -, hc⟩ := cornerLimit_spec hE x
  unfold surfRadius
  rw [es, ee, ez, ec]
  rcases nearSurfDart_spec hE hwf hst hone hE.T x with ⟨el, hT⟩ | ⟨l, el, hl⟩
  · rw [el]; exact .inl ⟨rfl, hT⟩
  rw [el]
  set m := min (min (min (min (E.rmax : WithTop ℝ) (scaleSz s)) z) (scaleSz e)) (scaleSz c) with hm
  set lim := limitNear r.tree.spheres E.L (Real.sqrt (1 - E.ratio * E.ratio)) x l m with hlim
  have h0 : lim ≤ m := limitNear_le ..
  have m4 : m ≤ scaleSz c := min_le_right _ _
  have m3 : m ≤ scaleSz e := (min_le_left _ _).trans (min_le_right _ _)
  have m2 : m ≤ z := (min_le_left _ _).trans ((min_le_left _ _).trans (min_le_right _ _))
  have m1 : m ≤ scaleSz s := (min_le_left _ _).trans ((min_le_left _ _).trans ((min_le_left _ _).trans (min_le_right _ _)))
  have m0 : m ≤ (E.rmax : WithTop ℝ) := (min_le_left _ _).trans ((min_le_left _ _).trans ((min_le_left _ _).trans (min_le_left _ _)))
  obtain ⟨b0, b1⟩ := atLeast_spec lim E.rmin hE.rmin
  refine .inr ⟨_, rfl, b0, b1 _ (h0.trans m0), fun h hh => ?_, fun h hh => ?_, fun k hk hs => ?_, fun h hh => ?_⟩
  · rw [es] at hh
    exact b1 _ (h0.trans (m1.trans (scaleSz_le (Option.some.inj hh).le)))
  · rw [ee] at hh
    exact b1 _ (h0.trans (m3.trans (scaleSz_le (Option.some.inj hh).le)))
  · exact b1 _ (h0.trans (m4.trans (scaleSz_le (hc k hk hs))))
  · rw [ez] at hh
    exact b1 _ (h0.trans (m2.trans (Option.some.inj hh).le))

/-! ## One round -/

theorem outside_of_uncovered {t : STree} (ht : t.Wf) {L : ℝ} (hL0 : 0 ≤ L) (hL1 : L < 1) {x : Nat → ℝ} (h : pointCovered t.store t.links L 0 x = some false) : OutsideTree t L x := by
  intro hlip s hs
  have hT : SphereTree t.store t.links := ht.resolve_left (by omega)
  obtain ⟨b, e, -, hb⟩ := C24_point_covered t.store t.links hT L 0 hL0 hL1 le_rfl one_pos x
  rw [h] at e
  obtain rfl := Option.some.inj e
  by_contra hc
  have := hb hlip ⟨s, hs, by simpa using not_le.1 hc⟩
  simp at this

theorem pointCovered_defined {t : STree} (ht : t.Wf) {L α : ℝ} (hL0 : 0 ≤ L) (hL1 : L < 1) (h0 : 0 ≤ α) (h1 : α < 1) (x : Nat → ℝ) :
    ∃ b, pointCovered t.store t.links L α x = some b := by
  rcases ht with ht | ht
  · exact ⟨false, by unfold pointCovered; rw [if_pos ht]⟩
  · obtain ⟨b, e, -⟩ := C24_point_covered t.store t.links ht L α hL0 hL1 h0 h1 x
    exact ⟨b, e⟩

theorem surfCovered_spec {E : SurfSetup} (hE : E.Ok) {r : SurfRun} (hr : r.tree.asSTree.Wf) (x : Nat → ℝ) :
    ∃ b, surfCovered E r x = some b ∧ (b = false → OutsideTree E.edge E.L x ∧ OutsideTree E.corner E.L x) := by
  obtain ⟨b1, e1⟩ := pointCovered_defined hE.corner hE.L0 hE.L1 le_rfl one_pos x
  obtain ⟨b2, e2⟩ := pointCovered_defined hE.edge hE.L0 hE.L1 le_rfl one_pos x
  obtain ⟨b3, e3⟩ := pointCovered_defined hr hE.L0 hE.L1 hE.ratio0 hE.ratio1 x
  unfold surfCovered
  rw [e1, e2]
  cases b1 with
  | true => exact ⟨true, rfl, by simp⟩
  | false =>
    cases b2 with
    | true => exact ⟨true, rfl, by simp⟩
    | false => exact ⟨b3, e3, fun _ => ⟨outside_of_uncovered hE.edge hE.L0 hE.L1 e2, outside_of_uncovered hE.corner hE.L0 hE.L1 e1⟩⟩

/-- A dart of the first region. -/
def DrawOk (E : SurfSetup) (d : Draw) : Prop :=
  d.face < E.S.numFaces ∧ InTriangle (E.S.point (E.S.corner d.face 0)) (E.S.point (E.S.corner d.face 1)) (E.S.point (E.S.corner d.face 2)) d.sphere ∧
    (d.covered = false → OutsideTree E.edge E.L d.sphere ∧ OutsideTree E.corner E.L d.sphere)

theorem drawDarts_spec {E : SurfSetup} (hE : E.Ok) {r : SurfRun} (hr : r.tree.asSTree.Wf) (level : Nat) {pool : List (PoolEntry ℝ)} (hne : pool ≠ [])
    (hd : Decodes E.S level pool) (n : Nat) : ∃ ds, drawDarts E level pool r n = some ds ∧ ds.length = n ∧ ∀ d ∈ ds, DrawOk E d := by
  induction n with
  | zero => exact ⟨[], rfl, rfl, by simp⟩
  | succ n ih =>
    obtain ⟨ds, e, hl, hds⟩ := ih
    obtain ⟨x, f, ex, ⟨p, hp, rfl⟩, hx⟩ := C69_dart_on_its_face E.S level pool hne hd (poolTable pool) (E.U n (3 * r.calls)) (fun k => E.U n (3 * r.calls + k))
      (fun k _ _ => hE.U _ _)
    obtain ⟨k, hk⟩ := hd p hp
    have hpar := (faceCorners_inside E.S level p k hk).1
    obtain ⟨b, eb, hb⟩ := surfCovered_spec hE hr x
    refine ⟨ds ++ [⟨x, p.parent, b⟩], by rw [drawDarts]; simp only [e, ex, eb], by simp [hl], fun d hd => ?_⟩
    rcases List.mem_append.1 hd with hd | hd
    · exact hds d hd
    · rw [List.mem_singleton.1 hd]
      exact ⟨hpar, hx, hb⟩

/-- A dart after the second region. -/
def SizedOk (E : SurfSetup) (d : Draw) : Prop := d.covered = false → 0 ≤ d.sphere 3 ∧ OnItsFace E d.sphere d.face

theorem sizeDarts_spec {E : SurfSetup} (hE : E.Ok) (ds : List Draw) : ∀ (prev : List Draw) (r : SurfRun), SurfRunOk E r → (∀ d ∈ prev, SizedOk E d) → (∀ d ∈ ds, DrawOk E d) →
    prev.length + ds.length = E.T → (E.T = 1 → (∃ d ∈ prev, d.covered = false) → ∃ ρ, r.stale 0 = some ρ) →
    FineIf E (sizeDarts E prev ds r) fun q => (∀ d ∈ q.1, SizedOk E d) ∧ q.2.tree = r.tree ∧ q.2.ids = r.ids ∧ SurfRunOk E q.2 ∧
      (E.T = 1 → (∃ d ∈ q.1, d.covered = false) → ∃ ρ, q.2.stale 0 = some ρ) := by
  induction ds with
  | nil => exact fun prev r hr hp _ _ hone => .inr ⟨_, rfl, hp, rfl, rfl, hr, hone⟩
  | cons d ds ih =>
    intro prev r hr hp hds hlen hone
    have hd := hds d (by simp)
    have hlen' : ∀ d', (prev ++ [d']).length + ds.length = E.T := fun d' => by simp at hlen ⊢; omega
    have happ : ∀ d', SizedOk E d' → ∀ x ∈ prev ++ [d'], SizedOk E x := fun d' h x hx => by
      rcases List.mem_append.1 hx with hx | hx
      · exact hp x hx
      · rw [List.mem_singleton.1 hx]; exact h
    have hone' : ∀ d', d'.covered = true → E.T = 1 → (∃ x ∈ prev ++ [d'], x.covered = false) → ∃ ρ, r.stale 0 = some ρ := fun d' h hT ⟨x, hx, hc⟩ => by
      rcases List.mem_append.1 hx with hx | hx
      · exact hone hT ⟨x, hx, hc⟩
      · rw [List.mem_singleton.1 hx, h] at hc; simp at hc
    rw [sizeDarts]
    by_cases hc : d.covered = true
    · rw [if_pos hc]
      exact ih _ r hr (happ d fun h => by rw [hc] at h; simp at h) (fun x hx => hds x (by simp [hx])) (hlen' _) (hone' d hc)
    · rw [if_neg hc]
      by_cases hh : hitBy E prev d.sphere = true
      · rw [if_pos hh]
        exact ih _ r hr (happ _ fun h => by simp at h) (fun x hx => hds x (by simp [hx])) (hlen' _) (hone' _ rfl)
      · rw [if_neg hh]
        have hp0 : E.T = 1 → prev.length = 0 := fun hT => by simp at hlen; omega
        rcases surfRadius_spec hE hr.wf hr.stale (t := prev.length) (fun hT hn => by rw [hp0 hT]; exact hr.single hT hn) d.sphere hd.1 with ⟨e, hT⟩ | ⟨ρ, e, h0, hsz⟩
        · rw [e]; exact .inl ⟨rfl, hT⟩
        rw [e]
        have hc' : d.covered = false := by simpa using hc
        have hd3 := hd.2.2 hc'
        refine (ih _ _ ?_ (happ _ fun _ => ?_) (fun x hx => hds x (by simp [hx])) (hlen' _) fun hT _ => ⟨ρ, ?_⟩).imp id ?_
        · refine ⟨hr.wf, hr.cap, hr.len, fun t ρ' ht => ?_, fun hT _ => ⟨ρ, ?_⟩, hr.on⟩
          · have ht : upd r.stale prev.length (some ρ) t = some ρ' := ht
            unfold upd at ht
            split at ht
            · rw [← Option.some.inj ht]; exact h0
            · exact hr.stale t ρ' ht
          · show upd r.stale prev.length (some ρ) 0 = some ρ
            rw [hp0 hT]; exact if_pos rfl
        · refine ⟨by simpa [upd] using h0, hd.1, d.sphere, hd.2.1, fun k hk => by simp [upd, show k ≠ 3 by omega], by simpa [upd] using hsz, hd3.1, hd3.2⟩
        · show upd r.stale prev.length (some ρ) 0 = some ρ
          rw [hp0 hT]; exact if_pos rfl
        · rintro ⟨q, eq, q1, q2, q3, q4, q5⟩
          exact ⟨q, eq, q1, q2, q3, q4, q5⟩

/-- Adding one sphere. -/
theorem SurfRunOk.add {E : SurfSetup} {r : SurfRun} (hr : SurfRunOk E r) {d : Draw} (h0 : 0 ≤ d.sphere 3) (hd : OnItsFace E d.sphere d.face)
    (hone : E.T = 1 → ∃ ρ, r.stale 0 = some ρ) :
    ∃ t, addTreePoint realLt 3 E.rb r.tree d.sphere = some t ∧ SurfRunOk E { r with tree := t, ids := r.ids ++ [d.face] } ∧ Grows r.tree.asSTree t.asSTree ∧ t.num = r.tree.num + 1 := by
  obtain ⟨t, et, ht, hcap, hnum, hold, hnew⟩ := SmartTree.add_sphere hr.wf hr.cap E.rb d.sphere h0
  refine ⟨t, et, ⟨.inr ht, .inr hcap, ?_, hr.stale, fun hT _ => hone hT, fun i g hg => ?_⟩, fun s hs => ?_, hnum⟩
  · show (r.ids ++ [d.face]).length = t.num
    rw [hnum, List.length_append, hr.len]; rfl
  · have hg : (r.ids ++ [d.face])[i]? = some g := hg
    show OnItsFace E (t.pts i) g
    rcases Nat.lt_or_ge i r.ids.length with h | h
    · rw [List.getElem?_append_left h] at hg
      rw [hold i (by rw [← hr.len]; exact h)]
      exact hr.on i g hg
    · rw [List.getElem?_append_right h] at hg
      have : i = r.ids.length := by
        by_contra hne
        rw [List.getElem?_eq_none (by simp; omega)] at hg
        simp at hg
      subst this
      simp at hg
      subst hg
      rw [hr.len, hnew]
      exact hd
  · have hs : s < r.tree.num := hs
    exact ⟨s, by show s < t.num; omega, fun d _ => by show t.pts s d = r.tree.pts s d; rw [hold s hs]⟩

theorem addDarts_spec {E : SurfSetup} (ds : List Draw) : ∀ (r : SurfRun) (m : Nat), SurfRunOk E r → (∀ d ∈ ds, SizedOk E d) →
    (E.T = 1 → (∃ d ∈ ds, d.covered = false) → ∃ ρ, r.stale 0 = some ρ) →
    ∃ r' m', addDarts E ds r m = some (r', m') ∧ SurfRunOk E r' ∧ Grows r.tree.asSTree r'.tree.asSTree := by
  induction ds with
  | nil => exact fun r m hr _ _ => ⟨r, m, rfl, hr, Grows.rfl' _⟩
  | cons d ds ih =>
    intro r m hr hds hone
    rw [addDarts]
    by_cases hc : d.covered = true
    · rw [if_pos hc]
      by_cases hm : m + 1 ≥ 100
      · rw [if_pos hm]; exact ⟨_, _, rfl, hr, Grows.rfl' _⟩
      · rw [if_neg hm]
        exact ih r (m + 1) hr (fun x hx => hds x (by simp [hx])) fun hT ⟨x, hx, h⟩ => hone hT ⟨x, by simp [hx], h⟩
    · rw [if_neg hc]
      have hc' : d.covered = false := by simpa using hc
      obtain ⟨h0, hd⟩ := hds d (by simp) hc'
      have h1 : E.T = 1 → ∃ ρ, r.stale 0 = some ρ := fun hT => hone hT ⟨d, by simp, hc'⟩
      obtain ⟨t, et, ht, hg, -⟩ := hr.add h0 hd h1
      rw [et]
      obtain ⟨r', m', e, hr', hg'⟩ := ih _ 0 ht (fun x hx => hds x (by simp [hx])) fun hT _ => h1 hT
      exact ⟨r', m', e, hr', hg.trans' hg'⟩

theorem surfRound_spec {E : SurfSetup} (hE : E.Ok) {r : SurfRun} (hr : SurfRunOk E r) (level : Nat) {pool : List (PoolEntry ℝ)} (hne : pool ≠ [])
    (hd : Decodes E.S level pool) (m : Nat) :
    FineIf E (surfRound E level pool r m) fun q => SurfRunOk E q.1 ∧ Grows r.tree.asSTree q.1.tree.asSTree := by
  obtain ⟨ds, e, hl, hds⟩ := drawDarts_spec hE hr.wf level hne hd E.T
  unfold surfRound
  rw [e]
  simp only
  rcases sizeDarts_spec hE ds [] r hr (by simp) hds (by simpa using hl) (fun _ ⟨x, hx, _⟩ => by simp at hx) with ⟨e1, hT⟩ | ⟨⟨qs, r1⟩, e1, h1, h2, h3, h4, h5⟩
  · rw [e1]; exact .inl ⟨rfl, hT⟩
  rw [e1]
  simp only at h1 h2 h3 h4 h5 ⊢
  obtain ⟨r', m', e', hr', hg'⟩ := addDarts_spec qs { r1 with calls := r1.calls + 1 } m ⟨h4.wf, h4.cap, h4.len, h4.stale, h4.single, h4.on⟩ h1 h5
  have hg' : Grows r1.tree.asSTree r'.tree.asSTree := hg'
  rw [h2] at hg'
  exact .inr ⟨(r', m'), e', hr', hg'⟩

theorem covered_grows {s s' e c : STree} {k : ℝ} {x : Nat → ℝ} (h : Grows s s') (hx : Covered s e c k x) : Covered s' e c k x :=
  hx.imp (inBall_grows h) id

/-- The sampling loop of a patch ends only with the patch covered. -/
theorem surfMps_spec {E : SurfSetup} (hE : E.Ok) (fuel : Nat) : ∀ (level : Nat) (pool : List (PoolEntry ℝ)) (misses : Nat) (r : SurfRun),
    SurfRunOk E r → pool ≠ [] → Decodes E.S level pool →
    FineIf E (surfMps E fuel level pool misses r) fun o => ∀ r', o = some r' → SurfRunOk E r' ∧ Grows r.tree.asSTree r'.tree.asSTree ∧
      ∀ x, InPool E.S level pool x → Covered r'.tree.asSTree E.edge E.corner E.ratio x := by
  induction fuel with
  | zero => exact fun level pool misses r hr hne hd => .inr ⟨none, rfl, by simp⟩
  | succ fuel ih =>
    intro level pool misses r hr hne hd
    rw [surfMps]
    rcases surfRound_spec hE hr level hne hd misses with ⟨e1, hT⟩ | ⟨⟨r1, m⟩, e1, h1, g1⟩
    · rw [e1]; exact .inl ⟨rfl, hT⟩
    rw [e1]
    simp only at h1 g1 ⊢
    by_cases hm : m ≥ 100
    · rw [if_pos hm]
      obtain ⟨new, en, dn, qn⟩ := refineSeq_pool area3 E.S level (coveredFace r1.tree.asSTree E.edge E.corner E.L E.ratio)
        (Covered r1.tree.asSTree E.edge E.corner E.ratio)
        (fun A B C => coveredFace_spec r1.tree.asSTree E.edge E.corner h1.wf hE.edge hE.corner E.L E.ratio hE.L0 hE.L1 hE.ratio0 hE.ratio1 A B C) pool hd
      rw [en]
      simp only
      by_cases h0 : new.length = 0
      · rw [if_pos h0]
        have h0 : new = [] := List.eq_nil_of_length_eq_zero h0
        subst h0
        refine .inr ⟨_, rfl, fun r' hr' => ?_⟩
        obtain rfl := Option.some.inj hr'
        exact ⟨h1, g1, fun x hx => (qn x hx).resolve_right fun ⟨e, he, _⟩ => by simp at he⟩
      · rw [if_neg h0]
        refine (ih (level + 1) new 0 r1 h1 (fun h => h0 (by rw [h]; rfl)) dn).imp id ?_
        rintro ⟨o, eo, ho⟩
        refine ⟨o, eo, fun r' hr' => ?_⟩
        obtain ⟨h2, g2, c2⟩ := ho r' hr'
        exact ⟨h2, g1.trans' g2, fun x hx => (qn x hx).elim (covered_grows g2) (c2 x)⟩
    · rw [if_neg hm]
      refine (ih level pool m r1 h1 hne hd).imp id ?_
      rintro ⟨o, eo, ho⟩
      refine ⟨o, eo, fun r' hr' => ?_⟩
      obtain ⟨h2, g2, c2⟩ := ho r' hr'
      exact ⟨h2, g1.trans' g2, c2⟩

theorem surfPatches_spec {E : SurfSetup} (hE : E.Ok) (mps : Nat) (ps : List (Nat × List Nat)) : (∀ p ∈ ps, p.2 ≠ [] ∧ ∀ f ∈ p.2, f < E.S.numFaces) → ∀ r, SurfRunOk E r →
    FineIf E (surfPatches E mps ps r) fun o => ∀ r', o = some r' → SurfRunOk E r' ∧ Grows r.tree.asSTree r'.tree.asSTree ∧
      ∀ p ∈ ps, ∀ f ∈ p.2, ∀ x, InTriangle (E.S.point (E.S.corner f 0)) (E.S.point (E.S.corner f 1)) (E.S.point (E.S.corner f 2)) x →
        Covered r'.tree.asSTree E.edge E.corner E.ratio x := by
  induction ps with
  | nil => exact fun _ r hr => .inr ⟨_, rfl, fun r' h => by obtain rfl := Option.some.inj h; exact ⟨hr, Grows.rfl' _, by simp⟩⟩
  | cons p ps ih =>
    intro hps r hr
    obtain ⟨hne, hf⟩ := hps p (by simp)
    obtain ⟨pool, ep, dp, qp⟩ := initialPool_spec area3 E.S hE.valid p.2 hf
    have hpne : pool ≠ [] := by
      obtain ⟨f, hfm⟩ := List.exists_mem_of_ne_nil _ hne
      rintro rfl
      obtain ⟨e, he, -⟩ := qp f hfm _ (inTriangle_self _ _ _).1
      simp at he
    rw [surfPatches]
    simp only [ep]
    rcases surfMps_spec hE mps 0 pool 0 r hr hpne dp with ⟨e1, hT⟩ | ⟨o, e1, ho⟩
    · rw [e1]; exact .inl ⟨rfl, hT⟩
    rw [e1]
    cases o with
    | none => exact .inr ⟨none, rfl, by simp⟩
    | some r1 =>
      obtain ⟨h1, g1, c1⟩ := ho r1 rfl
      refine (ih (fun q hq => hps q (by simp [hq])) r1 h1).imp id ?_
      rintro ⟨o, eo, ho⟩
      refine ⟨o, eo, fun r' hr' => ?_⟩
      obtain ⟨h2, g2, c2⟩ := ho r' hr'
      refine ⟨h2, g1.trans' g2, fun q hq f hfq x hx => ?_⟩
      rcases List.mem_cons.1 hq with rfl | hq
      · exact covered_grows g2 (c1 x (qp f hfq x hx))
      · exact c2 q hq f hfq x hx

/-! ## Narrow regions -/

theorem triNormal_repeat (a b : V3) : (triNormal ![a, b, b]).1 = fun _ => 0 := by
  have hz : ∀ u : V3, cross3 u u = fun _ => 0 := fun u => by
    funext d
    fin_cases d <;> simp [cross3] <;> ring
  have hd : Real.sqrt (dot3 (fun _ => 0) fun _ => 0) = 0 := by simp [dot3]
  unfold triNormal
  simp only [Matrix.cons_val_zero, Matrix.cons_val_one, Matrix.cons_val, hz, hd]
  cases (normalize3 fun d => b d - a d).2
  · rfl
  · simp only [Bool.not_true, Bool.or_self, Bool.false_eq_true, if_false]
    rw [if_pos (by norm_num)]

theorem insideLoop_flat (c : Fin 3 → V3) (q : V3) (is : List (Fin 3)) : insideLoop c (fun _ => 0) q is = true := by
  induction is with
  | nil => rfl
  | cons i is ih =>
    rw [insideLoop]
    split
    · rw [if_neg (by simp only [dot3]; norm_num)]; exact ih
    · exact ih

/-- With the second corner taken twice the triangle has no area and every point is its own projection. -/
theorem projTriangle_flat (x a b : V3) : projTriangle x ![a, b, b] = (x, 0) := by
  have hf : planeFoot x ![a, b, b] = x := by
    funext d
    unfold planeFoot
    simp only [triNormal_repeat]
    ring
  unfold projTriangle
  simp only [hf, triNormal_repeat, insideLoop_flat, if_true]
  congr 1
  simp [dist3]

theorem faceLimit_flat (th tol rmin : ℝ) (x a b : V3) : faceLimit th tol rmin x ![a, b, b] = none := by
  unfold faceLimit
  simp only [projTriangle_flat]
  have : (normalize3 fun d => x d - x d).2 = false := by
    unfold normalize3
    rw [if_pos]
    simp [dot3]
    norm_num
  rw [this]
  simp

theorem narrowFaces_flat {E : SurfSetup} {ids : List Nat} (hids : ∀ (j : Nat) (f : Nat), ids[j]? = some f → f < E.S.numFaces) (hv : E.S.Valid 3) (x : Nat → ℝ) (fi : Nat)
    (l : List Nat) (hl : ∀ j ∈ l, j < ids.length) (s : ℝ × Bool) : narrowFaces E ids x fi l s = some s := by
  induction l with
  | nil => rfl
  | cons j l ih =>
    have hj := hl j (by simp)
    have ej : ids[j]? = some ids[j] := List.getElem?_eq_getElem hj
    have hat : ∀ i, i < 3 → E.S.at ids[j] i = some (E.S.point (E.S.corner ids[j] i)) := fun i hi => by
      unfold PoolSurface.at; rw [if_pos ⟨hids j _ ej, hv _ (hids j _ ej) i hi⟩]
    rw [narrowFaces]
    simp only [ej]
    split
    · exact ih fun k hk => hl k (by simp [hk])
    · unfold narrowCorners
      simp only [hat 0 (by omega), hat 1 (by omega), faceLimit_flat]
      exact ih fun k hk => hl k (by simp [hk])

theorem narrowSurf_spec {E : SurfSetup} (hE : E.Ok) {ids : List Nat} (hids : ∀ (j : Nat) (f : Nat), ids[j]? = some f → f < E.S.numFaces) {P : PointStore ℝ} {ln : Links}
    (hP : SphereTree P ln) (hlen : ids.length = P.num) (m : Nat) (hm : m ≤ P.num) : narrowSurf E ln ids P m = some (P, false) := by
  induction m with
  | zero => rfl
  | succ m ih =>
    have em : ids[m]? = some ids[m] := List.getElem?_eq_getElem (by omega)
    obtain ⟨l, el, -, hl, -⟩ := C28_overlapping_spheres P ln hP E.L hE.L0 hE.L1 (P.pts m) (radius P m) (by rw [hP.radius]; exact hP.nonneg m (by omega))
    rw [narrowSurf, ih (by omega)]
    simp only [em, el, narrowFaces_flat hids hE.valid (P.pts m) ids[m] l (fun j hj => by rw [hlen]; exact (hl j hj).1)]
    rw [setAttr_same]

/-! ## Seeds -/

/-- The spheres of a seed: three different ones. -/
structure SeedAttr.Ok (a : SeedAttr) (n : Nat) : Prop where
  h1 : a.s1 < n
  h2 : a.s2 < n
  h3 : a.s3 < n
  n12 : a.s1 ≠ a.s2
  n13 : a.s1 ≠ a.s3
  n23 : a.s2 ≠ a.s3

/-- What holds of the seeds and slivers without any assumption about the positions of the spheres. -/
structure SeedSane (Z : SphereSet) (env : SeedEnv) (s : SeedRun) : Prop where
  lo : ∀ a ∈ s.lo.attr, a.Ok Z.total
  slivers : ∀ q ∈ s.slivers, ∃ cs : List Nat, cs[(env.resolve cs).1]? = some q.1 ∧ q.2 = (env.resolve cs).2

theorem addPair_lo {rb : Nat → Nat → Bool} {up lo up' lo' : SeedTree} {u l : Nat → ℝ} {s1 s2 s3 : Nat} (h : addPair rb up lo u l s1 s2 s3 = some (up', lo')) :
    ∀ a ∈ lo'.attr, a ∈ lo.attr ∨ (a.s1 = s1 ∧ a.s2 = s2 ∧ a.s3 = s3) := by
  unfold addPair at h
  split at h
  · next il iu _ _ =>
    split at h
    · next lo1 up1 e1 _ =>
      have h := Option.some.inj h
      simp only [Prod.mk.injEq] at h
      obtain ⟨-, rfl⟩ := h
      split at e1
      · unfold addSeed at e1
        obtain ⟨t, -, rfl⟩ := Option.map_eq_some_iff.1 e1
        intro a ha
        rcases List.mem_append.1 ha with ha | ha
        · exact .inl ha
        · rw [List.mem_singleton.1 ha]; exact .inr ⟨rfl, rfl, rfl⟩
      · rw [← Option.some.inj e1]; exact fun a ha => .inl ha
    · simp at h
  · simp at h

theorem noteSliver_sane {Z : SphereSet} {env : SeedEnv} (i : Nat) (ρ : ℝ) (h : ∃ cs : List Nat, cs[(env.resolve cs).1]? = some i ∧ ρ = (env.resolve cs).2) (ps : List (Nat × ℝ))
    (hps : ∀ q ∈ ps, ∃ cs : List Nat, cs[(env.resolve cs).1]? = some q.1 ∧ q.2 = (env.resolve cs).2) :
    ∀ q ∈ noteSliver i ρ ps, ∃ cs : List Nat, cs[(env.resolve cs).1]? = some q.1 ∧ q.2 = (env.resolve cs).2 := by
  induction ps with
  | nil => intro q hq; rw [noteSliver] at hq; rw [List.mem_singleton.1 hq]; exact h
  | cons p ps ih =>
    intro q hq
    rw [noteSliver] at hq
    split at hq
    · rcases List.mem_cons.1 hq with rfl | hq
      · exact hps _ (by simp)
      · exact ih (fun x hx => hps x (by simp [hx])) q hq
    · next hpi =>
      rcases List.mem_cons.1 hq with rfl | hq
      · have hpi : p.1 = i := not_not.1 hpi
        split
        · rw [← hpi] at h; exact h
        · exact hps p (by simp)
      · exact hps q (by simp [hq])

theorem seedTriple_sane {Z : SphereSet} {L : ℝ} {env : SeedEnv} {t : Nat × Nat × Nat} (h12 : t.1 < t.2.1) (h23 : t.2.1 < t.2.2) (h3 : t.2.2 < Z.total) {s s' : SeedRun}
    (hs : SeedSane Z env s) (h : seedTriple Z L env t s = some s') : SeedSane Z env s' := by
  unfold seedTriple at h
  simp only at h
  split at h
  · simp at h
  · split at h
    · simp at h
    · next pv _ =>
      split at h
      · rw [← Option.some.inj h]; exact ⟨hs.lo, hs.slivers⟩
      · split at h
        · rw [← Option.some.inj h]; exact ⟨hs.lo, hs.slivers⟩
        · split at h
          · simp at h
          · next cu cl cs _ =>
            split at h
            · split at h
              · rw [← Option.some.inj h]; exact ⟨hs.lo, hs.slivers⟩
              · next sp hsp =>
                rw [← Option.some.inj h]
                exact ⟨hs.lo, noteSliver_sane (Z := Z) sp _ ⟨_, hsp, rfl⟩ _ hs.slivers⟩
            · split at h
              · split at h
                · simp at h
                · next up lo hp =>
                  rw [← Option.some.inj h]
                  refine ⟨fun a ha => ?_, hs.slivers⟩
                  rcases addPair_lo hp a ha with ha | ⟨e1, e2, e3⟩
                  · exact hs.lo a ha
                  · generalize (seedNormal (Z.at t.1) (Z.at t.2.1) (Z.at t.2.2) (env.face t.1)).2 = b at e2 e3
                    cases b with
                    | true =>
                      simp only [if_true] at e2 e3
                      exact ⟨by omega, by omega, by omega, by omega, by omega, by omega⟩
                    | false =>
                      simp only [Bool.false_eq_true, if_false] at e2 e3
                      exact ⟨by omega, by omega, by omega, by omega, by omega, by omega⟩
              · rw [← Option.some.inj h]; exact ⟨hs.lo, hs.slivers⟩

theorem seedTripleLoop_sane {Z : SphereSet} {L : ℝ} {env : SeedEnv} (ts : List (Nat × Nat × Nat)) : (∀ t ∈ ts, t.1 < t.2.1 ∧ t.2.1 < t.2.2 ∧ t.2.2 < Z.total) →
    ∀ {s s' : SeedRun}, SeedSane Z env s → seedTripleLoop Z L env ts s = some s' → SeedSane Z env s' := by
  induction ts with
  | nil => intro _ s s' hs h; rw [seedTripleLoop] at h; rw [← Option.some.inj h]; exact hs
  | cons t ts ih =>
    intro hts s s' hs h
    rw [seedTripleLoop] at h
    split at h
    · simp at h
    · next s1 e =>
      obtain ⟨a1, a2, a3⟩ := hts t (by simp)
      exact ih (fun x hx => hts x (by simp [hx])) (seedTriple_sane a1 a2 a3 hs e) h

/-- Each tree is empty or a sphere tree. -/
structure SphereSet.Trees (Z : SphereSet) : Prop where
  s : Z.S.num = 0 ∨ SphereTree Z.S Z.lnS
  e : Z.E.num = 0 ∨ SphereTree Z.E Z.lnE
  c : Z.C.num = 0 ∨ SphereTree Z.C Z.lnC

theorem overlapping_bound {P : PointStore ℝ} {ln : Links} (h : P.num = 0 ∨ SphereTree P ln) {L : ℝ} (hL0 : 0 ≤ L) (hL1 : L < 1) {x : Nat → ℝ} {ρ : ℝ} (hρ : 0 ≤ ρ) {l : List Nat}
    (e : overlappingSpheres P ln L x ρ = some l) : ∀ s ∈ l, s < P.num := by
  rcases h with h | h
  · unfold overlappingSpheres at e
    rw [if_pos h] at e
    rw [← Option.some.inj e]
    simp
  · obtain ⟨l', e', -, hl, -⟩ := C28_overlapping_spheres P ln h L hL0 hL1 x ρ hρ
    rw [e] at e'
    obtain rfl := Option.some.inj e'
    exact fun s hs => (hl s hs).1

theorem nearSpheres_bound {Z : SphereSet} (hZ : Z.Trees) {L : ℝ} (hL0 : 0 ≤ L) (hL1 : L < 1) {i : Nat} (hi : i < Z.S.num) {near : List Nat} (e : nearSpheres Z L i = some near) :
    ∀ q ∈ near, q < Z.total := by
  have h0 : 0 ≤ Z.S.pts i 3 := (hZ.s.resolve_left (by omega)).nonneg i hi
  unfold nearSpheres at e
  split at e
  · next s e' c h1 h2 h3 =>
    rw [← Option.some.inj e]
    intro q hq
    unfold SphereSet.total
    simp only [List.mem_append, List.mem_map] at hq
    rcases hq with (hq | ⟨t, ht, rfl⟩) | ⟨t, ht, rfl⟩
    · have := overlapping_bound hZ.s hL0 hL1 h0 h1 q hq; omega
    · have := overlapping_bound hZ.e hL0 hL1 h0 h2 t ht; omega
    · have := overlapping_bound hZ.c hL0 hL1 h0 h3 t ht; omega
  · simp at e

theorem seedSphereLoop_sane {Z : SphereSet} (hZ : Z.Trees) {L : ℝ} (hL0 : 0 ≤ L) (hL1 : L < 1) {env : SeedEnv} (is : List Nat) : (∀ i ∈ is, i < Z.S.num) →
    ∀ {s s' : SeedRun}, SeedSane Z env s → seedSphereLoop Z L env is s = some s' → SeedSane Z env s' := by
  induction is with
  | nil => intro _ s s' hs h; rw [seedSphereLoop] at h; rw [← Option.some.inj h]; exact hs
  | cons i is ih =>
    intro his s s' hs h
    rw [seedSphereLoop] at h
    split at h
    · simp at h
    · next near en =>
      have hb := nearSpheres_bound hZ hL0 hL1 (his i (by simp)) en
      split at h
      · simp at h
      · next s1 e1 =>
        refine ih (fun x hx => his x (by simp [hx])) (seedTripleLoop_sane _ (fun t ht => ?_) hs e1) h
        obtain ⟨rfl, -, hk, h1, h2, -⟩ := mem_seedTriples.1 ht
        exact ⟨h1, h2, hb _ hk⟩

theorem shrinkSlivers_tree {ln : Links} (ns : Nat) (ps : List (Nat × ℝ)) (hps : ∀ p ∈ ps, 0 ≤ p.2) : ∀ s : PointStore ℝ × Bool, SphereTree s.1 ln →
    SphereTree (shrinkSlivers ns ps s).1 ln := by
  induction ps with
  | nil => exact fun s h => h
  | cons p ps ih =>
    intro s h
    rw [shrinkSlivers]
    refine ih (fun q hq => hps q (by simp [hq])) _ ?_
    split
    · exact h.setRadius p.1 (hps p (by simp))
    · exact h

theorem shrinkMarked_tree {ln : Links} (mark : Nat → Bool) (is : List Nat) : ∀ P : PointStore ℝ, (∀ i ∈ is, i < P.num) → SphereTree P ln → SphereTree (shrinkMarked mark is P) ln := by
  induction is with
  | nil => exact fun P _ h => h
  | cons i is ih =>
    intro P hi h
    rw [shrinkMarked]
    split
    · exact ih _ (fun j hj => hi j (by simp [hj])) (h.setRadius i (mul_nonneg (h.nonneg i (hi i (by simp))) (by norm_num)))
    · exact ih _ (fun j hj => hi j (by simp [hj])) h

/-- The sphere that `resolve_sliver` names is a surface sphere, and its new radius is not larger. -/
theorem resolveIn_spec {E : SurfSetup} (hE : E.Ok) {P : PointStore ℝ} (ln : Links) (cs : List Nat) (sp : Nat) (hsp : cs[(resolveIn E (E.spheres P ln) cs).1]? = some sp) :
    sp < P.num ∧ 0 ≤ (resolveIn E (E.spheres P ln) cs).2 ∧ (resolveIn E (E.spheres P ln) cs).2 ≤ P.pts sp 3 := by
  set Z := E.spheres P ln with hZdef
  unfold resolveIn at hsp ⊢
  simp only at hsp ⊢
  rcases C29_resolve_sliver cs.length (fun l => Z.at (cs.getD l 0) 3) (fun l => decide (Z.S.num ≤ cs.getD l 0)) (E.hm Z cs) E.r0 with ⟨h1, -⟩ | ⟨h1, h2, t, k, hk, h3, h4, -⟩
  · rw [h1, List.getElem?_eq_none le_rfl] at hsp
    simp at hsp
  · have hsp' : cs.getD (resolveSliver cs.length (fun l => Z.at (cs.getD l 0) 3) (fun l => decide (Z.S.num ≤ cs.getD l 0)) (E.hm Z cs) E.r0).index 0 = sp := by
      rw [List.getD_eq_getElem?_getD, hsp]; rfl
    have hlt : sp < Z.S.num := by
      rw [hsp'] at h2
      simpa using h2
    obtain ⟨q1, -, q3⟩ := h4 (hE.hm _ _ _ _ _ hk.dist)
    refine ⟨hlt, q1, ?_⟩
    rw [hsp'] at q3
    unfold SphereSet.at at q3
    rw [if_pos hlt] at q3
    exact q3.le

/-- `generate_surface_seeds` whenever it is defined, with the actual `resolve_sliver`. -/
theorem surfaceSeeds_sane {E : SurfSetup} (hE : E.Ok) {P : PointStore ℝ} {ln : Links} (hP : SphereTree P ln) {env : SeedEnv} (hres : env.resolve = resolveIn E (E.spheres P ln))
    {Q : PointStore ℝ} {b : Bool} {up lo : SeedTree} (h : surfaceSeeds (E.spheres P ln) E.L env = some (Q, b, up, lo)) :
    SameBut P Q ∧ SphereTree Q ln ∧ (∀ i, i < P.num → Q.pts i 3 ≤ P.pts i 3) ∧ (b = false → Q = P) ∧
      ∀ a ∈ lo.attr, a.Ok (P.num + E.edge.store.num + E.corner.store.num) := by
  set Z := E.spheres P ln with hZdef
  have hZ : Z.Trees := ⟨.inr hP, hE.edge, hE.corner⟩
  have hrad : ∀ (cs : List Nat) (sp : Nat), cs[(env.resolve cs).1]? = some sp → sp < P.num ∧ 0 ≤ (env.resolve cs).2 ∧ (env.resolve cs).2 ≤ P.pts sp 3 := by
    rw [hres]; exact resolveIn_spec hE ln
  have h0 : SeedSane Z env ⟨none, 0, [], SeedTree.empty, SeedTree.empty⟩ := ⟨by simp [SeedTree.empty], by simp⟩
  unfold surfaceSeeds at h
  split at h
  · simp at h
  · next s es =>
    have hs := seedSphereLoop_sane hZ hE.L0 hE.L1 _ (fun i hi => List.mem_range.1 hi) h0 es
    split at h
    · next hne =>
      have h := Option.some.inj h
      simp only [Prod.mk.injEq] at h
      obtain ⟨hQ, hb, -, rfl⟩ := h
      have hps : ∀ p ∈ s.slivers, p.1 < P.num ∧ 0 ≤ p.2 ∧ p.2 ≤ P.pts p.1 3 := fun p hp => by
        obtain ⟨cs, h1, h2⟩ := hs.slivers p hp
        rw [h2]
        exact hrad cs p.1 h1
      obtain ⟨k1, k2, k3⟩ := shrinkSlivers_spec Z.S.num s.slivers (Z.S, false)
      have ht := shrinkSlivers_tree (ln := ln) Z.S.num s.slivers (fun p hp => (hps p hp).2.1) (Z.S, false) hP
      rw [hQ] at k1 k3 ht
      refine ⟨k1, ht, fun i hi => ?_, fun hb0 => ?_, by simp [SeedTree.empty]⟩
      · rw [← ht.radius, ← hP.radius]
        rcases k3 i with k | ⟨p, hp, rfl, k⟩
        · exact k.le
        · rw [k, hP.radius]; exact (hps p hp).2.2
      · rw [← hb] at hb0
        obtain ⟨p, hp⟩ := List.exists_mem_of_ne_nil _ hne
        have := k2.2 (.inr ⟨p, hp, (hps p hp).1⟩)
        rw [hb0] at this
        simp at this
    · split at h
      · simp at h
      · next m1 _ =>
        split at h
        · simp at h
        · next m2 _ =>
          split at h
          · have h := Option.some.inj h
            simp only [Prod.mk.injEq] at h
            obtain ⟨hQ, hb, -, rfl⟩ := h
            obtain ⟨k1, k2⟩ := shrinkMarked_spec m2.1 (List.range Z.S.num) List.nodup_range Z.S hP.dim
            have ht := shrinkMarked_tree (ln := ln) m2.1 (List.range Z.S.num) Z.S (fun i hi => List.mem_range.1 hi) hP
            rw [hQ] at k1 k2 ht
            refine ⟨k1, ht, fun i hi => ?_, fun hb0 => ?_, by simp [SeedTree.empty]⟩
            · have hn := hP.nonneg i hi
              have k := k2 i
              rw [ht.radius, show radius Z.S i = P.pts i 3 from hP.radius i] at k
              rw [k]
              split
              · linarith
              · exact le_rfl
            · rw [← hb] at hb0; simp at hb0
          · have h := Option.some.inj h
            simp only [Prod.mk.injEq] at h
            obtain ⟨rfl, hb, -, rfl⟩ := h
            exact ⟨.refl _, hP, fun i _ => le_rfl, fun _ => rfl, hs.lo⟩

/-! ## Watertightness -/

/-- The radii only scale the result of the validation. -/
theorem validateEdges_scale (n ns : Nat) (faces : List (List Nat)) (pf : Nat → FaceBuf) (r : Nat → ℝ) (es : List (Nat × Nat)) : ∀ (t : Bool) (k : Nat → ℝ),
    validateEdges n ns faces pf es ⟨t, fun q => r q * k q⟩ = (validateEdges n ns faces pf es ⟨t, k⟩).map fun s => ⟨s.tight, fun q => r q * s.radius q⟩ := by
  have hs : ∀ p (k : Nat → ℝ), shrink ns p (fun q => r q * k q) = fun q => r q * shrink ns p k q := fun p k => by
    funext q
    simp only [shrink]
    split <;> ring
  have he : ∀ c e t (k : Nat → ℝ), validateEdge ns c e ⟨t, fun q => r q * k q⟩ = ⟨(validateEdge ns c e ⟨t, k⟩).tight, fun q => r q * (validateEdge ns c e ⟨t, k⟩).radius q⟩ := by
    intro c e t k
    simp only [validateEdge]
    split
    · simp only [hs]
    · split
      · simp only [hs]
      · rfl
  induction es with
  | nil => exact fun t k => rfl
  | cons e es ih =>
    intro t k
    rw [validateEdges, validateEdges]
    cases numEdgeFaces n faces pf e.1 e.2 with
    | none => rfl
    | some c => simp only [he, ih]

theorem validateFaces_scale (n ns : Nat) (faces : List (List Nat)) (pf : Nat → FaceBuf) (r : Nat → ℝ) (fs : List (List Nat)) : ∀ (t : Bool) (k : Nat → ℝ),
    validateFaces n ns faces pf fs ⟨t, fun q => r q * k q⟩ = (validateFaces n ns faces pf fs ⟨t, k⟩).map fun s => ⟨s.tight, fun q => r q * s.radius q⟩ := by
  induction fs with
  | nil => exact fun t k => rfl
  | cons f fs ih =>
    intro t k
    rw [validateFaces, validateFaces]
    cases edges3 f with
    | none => rfl
    | some es =>
      simp only [validateEdges_scale]
      cases validateEdges n ns faces pf es ⟨t, k⟩ with
      | none => rfl
      | some s => exact ih s.tight s.radius

/-- `validate_surface_mesh` for any radii. -/
theorem validateSurface_any (n ns : Nat) (faces : List (List Nat)) (h : TriMesh n faces) (hs : SimpleFaces faces) (r : Nat → ℝ) :
    ∃ s, validateSurface n ns faces r = some s ∧
      (s.tight = true → (∀ f ∈ faces, ∀ a ∈ f, ∀ b ∈ f, a ≠ b → a < ns → faces.countP (fun g => decide (a ∈ g) && decide (b ∈ g)) = 2) ∧ s.radius = r) ∧
      ∀ q, ∃ k : ℝ, 0 ≤ k ∧ k ≤ 1 ∧ s.radius q = r q * k := by
  obtain ⟨s, e, h1, h2, -, h4, -⟩ := C22_validation_partial n ns faces h hs (fun _ => 1) fun _ => one_pos
  have e' : validateSurface n ns faces r = some ⟨s.tight, fun q => r q * s.radius q⟩ := by
    unfold validateSurface at e ⊢
    cases hb : buildPointFaces n faces with
    | none => rw [hb] at e; simp at e
    | some pf =>
      rw [hb] at e
      simp only at e ⊢
      have := validateFaces_scale n ns faces pf r faces true fun _ => 1
      simp only [mul_one] at this
      rw [this, e]
      rfl
  refine ⟨_, e', fun ht => ⟨h1.1 ht, ?_⟩, fun q => ⟨s.radius q, (h4 q).1.le, (h4 q).2, rfl⟩⟩
  simp only [h2 ht, mul_one]

theorem setRadii_spec {ln : Links} {Q : PointStore ℝ} (hQ : SphereTree Q ln) (r : Nat → ℝ) (n : Nat) (hr : ∀ i, i < n → 0 ≤ r i) :
    SameBut Q (setRadii r n Q) ∧ SphereTree (setRadii r n Q) ln ∧ ∀ i, radius (setRadii r n Q) i = if i < n then r i else radius Q i := by
  induction n with
  | zero => exact ⟨.refl _, hQ, fun i => by simp [setRadii]⟩
  | succ n ih =>
    obtain ⟨h1, h2, h3⟩ := ih fun i hi => hr i (by omega)
    refine ⟨h1.trans (sameBut_setAttr _ n _), h2.setRadius n (hr n (by omega)), fun i => ?_⟩
    rw [setRadii, radius_setAttr]
    split
    · next h => subst h; rw [if_pos (by omega)]
    · next h =>
      rw [h3]
      by_cases hi : i < n
      · rw [if_pos hi, if_pos (by omega)]
      · rw [if_neg hi, if_neg (by omega)]

theorem setRadii_self (Q : PointStore ℝ) (r : Nat → ℝ) (n : Nat) (hr : ∀ i, i < n → r i = radius Q i) : setRadii r n Q = Q := by
  induction n with
  | zero => rfl
  | succ n ih =>
    rw [setRadii, ih fun i hi => hr i (by omega), hr n (by omega)]
    exact setAttr_same Q n


/-! ## The loop -/

/-- Every edge of the faces that touches a surface sphere is an edge of exactly two of them. -/
def Watertight (ns : Nat) (faces : List (List Nat)) : Prop :=
  ∀ f ∈ faces, ∀ a ∈ f, ∀ b ∈ f, a ≠ b → a < ns → faces.countP (fun g => decide (a ∈ g) && decide (b ∈ g)) = 2

/-- The corners of the face recorded for sphere `i`. -/
noncomputable def recordedFace (E : SurfSetup) (r : SurfRun) (i : Nat) : Fin 3 → V3 :=
  if i < r.ids.length then fun k d => E.S.point (E.S.corner (r.ids.getD i 0) k.val) d.val else fun _ _ => 0

theorem env_face (E : SurfSetup) (Z : SphereSet) (r : SurfRun) : (E.env Z r).face = recordedFace E r := by
  funext i
  simp only [SurfSetup.env, recordedFace]
  by_cases hi : i < r.ids.length
  · rw [if_pos hi, List.getElem?_eq_getElem hi, show r.ids.getD i 0 = r.ids[i] by simp [List.getD, hi]]; rfl
  · rw [if_neg hi, List.getElem?_eq_none (by omega)]

/-- What holds when `generate_surface_spheres` returns. -/
structure SurfResult (E : SurfSetup) (r : SurfRun) (up lo : SeedTree) : Prop where
  tree : SphereTree r.tree.spheres r.tree.links
  covered : ∀ f, f < E.S.numFaces → ∀ x, InTriangle (E.S.point (E.S.corner f 0)) (E.S.point (E.S.corner f 1)) (E.S.point (E.S.corner f 2)) x →
    InBall r.tree.asSTree (Real.sqrt (1 - E.ratio ^ 2)) x ∨ InBall E.edge 1 x ∨ InBall E.corner 1 x
  ids : r.ids.length = r.tree.num
  on : ∀ (i : Nat) (f : Nat), r.ids[i]? = some f → OnItsFace E (r.tree.pts i) f
  lip : ∀ i j, i < r.tree.num → j < r.tree.num → euclid 3 (r.tree.pts i) (r.tree.pts j) < 2 * r.tree.pts i 3 →
    r.tree.pts i 3 ≤ r.tree.pts j 3 + E.L * euclid 3 (r.tree.pts i) (r.tree.pts j)
  lipschitz : 1 / 2 ≤ E.L → LipschitzRadii r.tree.spheres E.L
  spheres : ∀ a ∈ lo.attr, a.Ok (r.tree.num + E.edge.store.num + E.corner.store.num)
  watertight : Watertight r.tree.num (lo.attr.map fun a => [a.s1, a.s2, a.s3])
  seeds : ∀ Z, Z = E.spheres r.tree.spheres r.tree.links → Z.OK E.L → (∀ k, (E.env Z { r with seedings := k }).Works Z) →
    (up.attr.length = up.tree.num ∧ lo.attr.length = lo.tree.num) ∧
      (∀ (q : Nat) (a : SeedAttr), (mergeSeedAttrs up lo)[q]? = some a → MergedSeedOK Z (recordedFace E r) up lo q a) ∧
      (∀ p q, p < up.tree.num + lo.tree.num → q < up.tree.num + lo.tree.num → p ≠ q → (p < up.tree.num ↔ q < up.tree.num) → 1e-10 ≤ euclid 3 (mergedSeed up lo p) (mergedSeed up lo q)) ∧
      (∀ i j k, MeetingTriple Z i j k → PairStored Z up.points lo.points i j k) ∧
      (∀ i, i < up.tree.num → AllFar Z.S up i) ∧ ∀ i, i < lo.tree.num → AllFar Z.S lo i

theorem SurfRunOk.shrunk {E : SurfSetup} {r : SurfRun} (hr : SurfRunOk E r) {P : PointStore ℝ} (hs : SameBut r.tree.spheres P) (hP : SphereTree P r.tree.links)
    (hle : ∀ i, i < r.tree.num → P.pts i 3 ≤ r.tree.pts i 3) : SurfRunOk E (r.withPts P) := by
  refine ⟨.inr ?_, hr.cap, hr.len, hr.stale, hr.single, fun i f hi => ?_⟩
  · show SphereTree ({ r.tree with pts := P.pts } : SmartTree ℝ).spheres r.tree.links
    rw [SmartTree.Wf_pts hs]; exact hP
  · have hi : r.ids[i]? = some f := hi
    have hi' : i < r.tree.num := by rw [← hr.len]; exact (List.getElem?_eq_some_iff.1 hi).1
    obtain ⟨h1, y, h2, h3, h4, h5⟩ := hr.on i f hi
    refine ⟨h1, y, h2, fun d hd => ?_, h4.mono (hle i hi'), h5⟩
    rw [← h3 d hd]
    exact hs.pts i d (by show d ≠ 3; omega)

theorem SurfRunOk.seeded {E : SurfSetup} {r : SurfRun} (hr : SurfRunOk E r) (k : Nat) : SurfRunOk E { r with seedings := k } :=
  ⟨hr.wf, hr.cap, hr.len, hr.stale, hr.single, hr.on⟩

/-- The last part of a round. -/
theorem surfFinish_spec {E : SurfSetup} (hE : E.Ok) {r : SurfRun} (hr : SurfRunOk E r)
    (hc : ∀ f, f < E.S.numFaces → ∀ x, InTriangle (E.S.point (E.S.corner f 0)) (E.S.point (E.S.corner f 1)) (E.S.point (E.S.corner f 2)) x →
      Covered r.tree.asSTree E.edge E.corner E.ratio x)
    {r' : SurfRun} {o : Option (SeedTree × SeedTree)} (h : surfFinish E r = some (r', o)) :
    SurfRunOk E r' ∧ ∀ up lo, o = some (up, lo) → SurfResult E r' up lo := by
  rcases Nat.eq_zero_or_pos r.tree.num with h0 | hpos
  · unfold surfFinish at h
    rw [C27_empty_undefined E.L r.tree.spheres r.tree.links h0] at h
    simp at h
  have ht : SphereTree r.tree.spheres r.tree.links := hr.wf.resolve_left (by show r.tree.num ≠ 0; omega)
  obtain ⟨P, sh, eP, hs, hP, hle, hloc, hlip, -, hsh⟩ := C27_lipschitz_tree_partial E.L hE.L0 r.tree.spheres r.tree.links ht r.tree.num le_rfl false
  unfold surfFinish at h
  rw [eP] at h
  cases sh with
  | true =>
    simp only [Option.some.injEq, Prod.mk.injEq] at h
    obtain ⟨rfl, rfl⟩ := h
    exact ⟨hr.shrunk hs hP hle, by simp⟩
  | false =>
    simp only at h
    have hnum : P.num = r.tree.num := hs.num
    have eS : ({ r.tree with pts := P.pts } : SmartTree ℝ).spheres = P := SmartTree.Wf_pts hs
    split at h
    · simp at h
    · next Q _ _ es =>
      obtain ⟨k1, k2, k3, -, -⟩ := surfaceSeeds_sane hE hP rfl es
      simp only [Option.some.injEq, Prod.mk.injEq] at h
      obtain ⟨rfl, rfl⟩ := h
      exact ⟨(hr.seeded _).shrunk (hs.trans k1) k2 fun i hi => (k3 i (by rw [hnum]; exact hi)).trans (hle i hi), by simp⟩
    · next Q up lo es =>
      obtain ⟨-, -, -, k4, k5⟩ := surfaceSeeds_sane hE hP rfl es
      obtain rfl := k4 rfl
      have hmesh : TriMesh (Q.num + E.edge.store.num + E.corner.store.num) (sphereTriples lo) := by
        intro f hf
        obtain ⟨a, ha, rfl⟩ := List.mem_map.1 hf
        refine ⟨rfl, fun c hc => ?_⟩
        simp only [List.mem_cons, List.not_mem_nil, or_false] at hc
        rcases hc with rfl | rfl | rfl
        exacts [(k5 a ha).h1, (k5 a ha).h2, (k5 a ha).h3]
      have hsimple : SimpleFaces (sphereTriples lo) := by
        intro f hf
        obtain ⟨a, ha, rfl⟩ := List.mem_map.1 hf
        have := k5 a ha
        simp [this.n12, this.n13, this.n23]
      obtain ⟨v, ev, v1, v2⟩ := validateSurface_any _ Q.num _ hmesh hsimple fun q => Q.pts q 3
      rw [ev] at h
      simp only [Option.some.injEq, Prod.mk.injEq] at h
      obtain ⟨rfl, rfl⟩ := h
      have hv0 : ∀ i, i < Q.num → 0 ≤ v.radius i := fun i hi => by
        obtain ⟨k, h0, -, e⟩ := v2 i
        rw [e]; exact mul_nonneg (hP.nonneg i hi) h0
      obtain ⟨w1, w2, w3⟩ := setRadii_spec hP v.radius Q.num hv0
      refine ⟨(hr.seeded _).shrunk (hs.trans w1) w2 fun i hi => ?_, fun up' lo' ho => ?_⟩
      · rw [← w2.radius, w3, if_pos (by rw [hnum]; exact hi)]
        obtain ⟨k, h0, h1, e⟩ := v2 i
        rw [e]
        exact (mul_le_of_le_one_right (hP.nonneg i (by rw [hnum]; exact hi)) h1).trans (hle i hi)
      · split at ho
        · next htight =>
          simp only [Option.some.injEq, Prod.mk.injEq] at ho
          obtain ⟨rfl, rfl⟩ := ho
          obtain ⟨x1, x2⟩ := v1 htight
          have eself : setRadii v.radius Q.num Q = Q := setRadii_self Q v.radius Q.num fun i _ => by rw [x2, hP.radius]
          rw [eself]
          have hrad : ∀ i, i < r.tree.num → Q.pts i 3 = r.tree.pts i 3 := fun i hi => by
            refine le_antisymm (hle i hi) (not_lt.1 fun hlt => ?_)
            have := hsh.2 (Or.inr ⟨i, hi, hlt⟩)
            simp at this
          have hpt : ∀ i, i < r.tree.num → ∀ d, d < 4 → Q.pts i d = r.tree.pts i d := fun i hi d hd => by
            rcases eq_or_ne d 3 with rfl | h
            · exact hrad i hi
            · exact hs.pts i d h
          have heu : ∀ i j, euclid 3 (Q.pts i) (Q.pts j) = euclid 3 (r.tree.pts i) (r.tree.pts j) := fun i j =>
            euclid_congr (fun d hd => hs.pts i d (by show d ≠ 3; omega)) (fun d hd => hs.pts j d (by show d ≠ 3; omega))
          refine ⟨eS ▸ hP, fun f hf x hx => ?_, hr.len, (hr.shrunk hs hP hle).on, fun i j hi hj hij => ?_, fun hL => eS ▸ hlip hL, ?_, ?_, ?_⟩
          · exact covered_grows (s := r.tree.asSTree) (fun s hs' => ⟨s, hs', fun d hd => hpt s hs' d hd⟩) (hc f hf x hx)
          · have := hloc i j hi hj (by show euclid 3 (r.tree.pts i) (r.tree.pts j) < _; rw [← heu]; exact hij)
            show Q.pts i 3 ≤ Q.pts j 3 + E.L * euclid 3 (Q.pts i) (Q.pts j)
            rw [heu]; exact this
          · rw [hnum] at k5; exact k5
          · rw [hnum] at x1; exact x1
          · intro Z eZ hZ hW
            have eZ : Z = E.spheres Q r.tree.links := by rw [← eS]; exact eZ
            subst eZ
            have hres : ∀ (cs : List Nat) (sp : Nat), cs[(resolveIn E (E.spheres Q r.tree.links) cs).1]? = some sp → sp < Q.num := fun cs sp h => (resolveIn_spec hE r.tree.links cs sp h).1
            obtain ⟨P', b', up', lo', e', -, m0, m1, m1', m2, -, -⟩ := C39_seed_pairs_partial _ E.L _ hZ (hW r.seedings) hres
            have es' := es.symm.trans e'
            simp only [Option.some.injEq, Prod.mk.injEq] at es'
            obtain ⟨-, rfl, rfl, rfl⟩ := es'
            rw [env_face] at m1
            exact ⟨m0, m1, m1', (m2 rfl).2⟩
        · simp at ho

theorem surfCheck_spec {E : SurfSetup} (hE : E.Ok) {r : SurfRun} (hr : SurfRunOk E r)
    (hc : ∀ f, f < E.S.numFaces → ∀ x, InTriangle (E.S.point (E.S.corner f 0)) (E.S.point (E.S.corner f 1)) (E.S.point (E.S.corner f 2)) x →
      Covered r.tree.asSTree E.edge E.corner E.ratio x)
    {r' : SurfRun} {o : Option (SeedTree × SeedTree)} (h : surfCheck E r = some (r', o)) :
    SurfRunOk E r' ∧ ∀ up lo, o = some (up, lo) → SurfResult E r' up lo := by
  unfold surfCheck at h
  by_cases ht : E.tol > 0
  · rw [if_pos ht] at h
    have hn : narrowSurf E r.tree.links r.ids r.tree.spheres r.tree.num = some (r.tree.spheres, false) := by
      rcases hr.wf with h0 | h0
      · have h0 : r.tree.num = 0 := h0
        rw [h0]; rfl
      · exact narrowSurf_spec hE (fun j f hj => (hr.on j f hj).1) h0 hr.len _ le_rfl
    rw [hn] at h
    exact surfFinish_spec hE hr hc h
  · rw [if_neg ht] at h
    exact surfFinish_spec hE hr hc h

theorem surfRunOk_empty (E : SurfSetup) : SurfRunOk E ⟨SmartTree.empty (fun _ _ => 0) id id, [], fun _ => none, 0, 0⟩ :=
  ⟨.inl rfl, .inl rfl, rfl, by simp, fun _ h => absurd h (by show ¬ 0 < 0; omega), fun i f h => by simp at h⟩

theorem patches_all (nf : Nat) (h : 0 < nf) : ∃ ps, patchLoop nf 100 0 100 = some ps ∧ (∀ p ∈ ps, p.2 ≠ [] ∧ ∀ f ∈ p.2, f < nf) ∧ ∀ f, f < nf → ∃ p ∈ ps, f ∈ p.2 := by
  obtain ⟨ps, e, -, -, h3⟩ := C34_patches_partition nf 100 (by norm_num)
  obtain ⟨-, h5, -⟩ := C34_patches_disjoint nf 100 (by norm_num) ps e
  exact ⟨ps, e, fun p hp => ⟨h3 h p hp, fun f hf => (h5 f).2 ⟨p, hp, hf⟩⟩, fun f hf => (h5 f).1 hf⟩

theorem surfLoop_spec {E : SurfSetup} (hE : E.Ok) (mps fuel : Nat) : ∀ r, SurfRunOk E r → ∀ r' up lo, surfLoop E mps fuel r = some (some (r', up, lo)) → SurfResult E r' up lo := by
  induction fuel with
  | zero => intro r _ r' up lo h; simp [surfLoop] at h
  | succ fuel ih =>
    intro r hr r' up lo h
    obtain ⟨ps, ep, hps, hall⟩ := patches_all E.S.numFaces hE.some_face
    rw [surfLoop, ep] at h
    simp only at h
    cases e1 : surfPatches E mps ps r with
    | none => rw [e1] at h; simp at h
    | some o =>
      have ho := (surfPatches_spec hE mps ps hps r hr).result e1
      rw [e1] at h
      cases o with
      | none => simp at h
      | some r1 =>
        obtain ⟨h1, -, c1⟩ := ho r1 rfl
        simp only at h
        split at h
        · simp at h
        · next r2 e2 =>
          exact ih r2 (surfCheck_spec hE h1 (fun f hf x hx => by obtain ⟨p, hp, hfp⟩ := hall f hf; exact c1 p hp f hfp x hx) e2).1 r' up lo h
        · next r2 s e2 =>
          have h := Option.some.inj (Option.some.inj h)
          simp only [Prod.mk.injEq] at h
          obtain ⟨rfl, rfl⟩ := h
          exact (surfCheck_spec hE h1 (fun f hf x hx => by obtain ⟨p, hp, hfp⟩ := hall f hf; exact c1 p hp f hfp x hx) e2).2 _ _ rfl

/-- **C82.** Surface spheres: whenever `generate_surface_spheres` returns, with the final radii every point of every face lies in a surface sphere scaled by the coverage ratio, in
an edge sphere or in a corner sphere; every sphere is centred on the face recorded for it, outside the edge and corner spheres, and obeys the size bounds there; neighbouring radii
obey the Lipschitz condition (all radii if `L` is at least one half); the seeds belong to three different spheres each; every edge of the triangles of these spheres that touches a
surface sphere is in exactly two of them; and where C39 applies to the final spheres, the seeds are the pairs of all meeting triples, none crowded. -/
theorem C82_surface_spheres (E : SurfSetup) (hE : E.Ok) (mps fuel : Nat) (r : SurfRun) (up lo : SeedTree) (h : surfaceSpheres E mps fuel = some (some (r, up, lo))) :
    SurfResult E r up lo :=
  surfLoop_spec hE mps fuel _ (surfRunOk_empty E) r up lo h

/-- **C82, sampling.** With one thread the sampling of any list of patches is never undefined, from the start on, and if it ends, every point of every face in them is covered. -/
theorem C82_sampling_defined (E : SurfSetup) (hE : E.Ok) (hT : E.T = 1) (mps : Nat) (ps : List (Nat × List Nat)) (hps : ∀ p ∈ ps, p.2 ≠ [] ∧ ∀ f ∈ p.2, f < E.S.numFaces) :
    ∃ o, surfPatches E mps ps ⟨SmartTree.empty (fun _ _ => 0) id id, [], fun _ => none, 0, 0⟩ = some o ∧
      ∀ r, o = some r → ∀ p ∈ ps, ∀ f ∈ p.2, ∀ x, InTriangle (E.S.point (E.S.corner f 0)) (E.S.point (E.S.corner f 1)) (E.S.point (E.S.corner f 2)) x →
        InBall r.tree.asSTree (Real.sqrt (1 - E.ratio ^ 2)) x ∨ InBall E.edge 1 x ∨ InBall E.corner 1 x := by
  obtain ⟨o, e, h⟩ := (surfPatches_spec hE mps ps hps _ (surfRunOk_empty E)).defined hT
  exact ⟨o, e, fun r hr => (h r hr).2.2⟩

end VoroCrust
