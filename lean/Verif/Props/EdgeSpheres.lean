import Verif.Model.EdgeSpheres
import Verif.Props.Corners
import Verif.Props.PoolCover
import Verif.Props.Sliver
import Verif.Props.Geometry

/-! # Property C81: edge spheres cover the sharp edges -/

namespace VoroCrust

/-! ## Growing a sphere tree -/

theorem SmartTree.inv_of_wf {t : SmartTree ℝ} (hw : t.asSTree.Wf) (hcap : t.num = 0 ∨ t.num < t.cap) :
    t.Inv realLt 3 ((List.range t.num).map t.pts) := by
  rcases Nat.eq_zero_or_pos t.num with h0 | h0
  · refine ⟨by simp, hcap, fun k hk => by simp, .nil, fun h => absurd h0 h, by simp [KT.idx, h0]⟩
  · rcases hw with hw | hw
    · exact absurd hw (by show t.num ≠ 0; omega)
    obtain ⟨T, h1, -, h3⟩ := hw.tree.2.2.ok (by show 0 < 3; omega) (by intro a b; exact realLt_asymm a b)
    exact ⟨by simp, hcap, fun k hk => by simp, T, fun _ => h1, h3⟩

/-- Adding a sphere to a sphere tree: defined, again a sphere tree, the old spheres unchanged. -/
theorem SmartTree.add_sphere {t : SmartTree ℝ} (hw : t.asSTree.Wf) (hcap : t.num = 0 ∨ t.num < t.cap) (rb : Nat → Nat → Bool)
    (x : Nat → ℝ) (hx : 0 ≤ x 3) :
    ∃ t', addTreePoint realLt 3 rb t x = some t' ∧ SphereTree t'.spheres t'.links ∧ t'.num < t'.cap ∧ t'.num = t.num + 1 ∧
      (∀ k, k < t.num → t'.pts k = t.pts k) ∧ t'.pts t.num = x := by
  have hi := SmartTree.inv_of_wf hw hcap
  obtain ⟨t', e, hi'⟩ := addTreePoint_inv (rb := rb) (by norm_num) realLt_asymm hi x
  have hn : t'.num = t.num + 1 := by rw [hi'.num]; simp
  have hold : ∀ k, k < t.num → t'.pts k = t.pts k := fun k hk => by
    rw [hi'.pts k (by simp; omega), List.getElem_append_left (by simpa using hk)]; simp
  have hnew : t'.pts t.num = x := by
    rw [hi'.pts t.num (by simp)]; simp
  refine ⟨t', e, ?_, hi'.cap.resolve_left (by omega), hn, hold, hnew⟩
  have hb : BuiltTree t'.spheres t'.links := by
    rcases Nat.eq_zero_or_pos t.num with h0 | h0
    · refine BuiltTree.inserted (dim := 3) realLt rb [x] t.pts t.links.left t.links.right t' ?_ (by simp)
      simp only [addTreePoints]
      have : addTreePoint realLt 3 rb (SmartTree.empty t.pts t.links.left t.links.right) x = addTreePoint realLt 3 rb t x := by
        unfold addTreePoint
        rw [if_pos h0, if_pos (show (SmartTree.empty t.pts t.links.left t.links.right).num = 0 from rfl)]
        rfl
      rw [this, e]; rfl
    · rcases hw with hw | hw
      · exact absurd hw (by show t.num ≠ 0; omega)
      exact BuiltTree.extended (P := t.spheres) (ln := t.links) rb t.cap x t' hw.tree.2.2 (hcap.resolve_left (by omega)) e
  refine ⟨⟨rfl, by show 0 < 3; omega, hb⟩, rfl, fun i hi => ?_⟩
  have hi : i < t'.num := hi
  show 0 ≤ t'.pts i 3
  rcases Nat.lt_or_ge i t.num with h | h
  · rw [hold i h]
    rcases hw with hw | hw
    · have : t.num = 0 := hw
      omega
    · exact hw.nonneg i h
  · rw [show i = t.num by omega, hnew]; exact hx

/-- Changing only radii of a sphere tree. -/
theorem SmartTree.Wf_pts {t : SmartTree ℝ} {P : PointStore ℝ} (hs : SameBut t.spheres P) :
    ({ t with pts := P.pts } : SmartTree ℝ).spheres = P := by
  obtain ⟨h1, h2, h3, -⟩ := hs
  cases P
  simp only [SmartTree.spheres] at h1 h2 h3 ⊢
  subst h1 h2 h3
  rfl


/-! ## What the properties say -/

/-- What the code relies on: edges inside the point array, at least one corner sphere, answers of the queries, constants in their ranges. -/
structure EdgeSetup.Ok (E : EdgeSetup) : Prop where
  valid : E.S.Valid 2
  some_edge : 0 < E.S.numFaces
  corner : SphereTree E.corner.store E.corner.links
  L0 : 0 ≤ E.L
  L1 : E.L < 1
  ratio0 : 0 ≤ E.ratio
  ratio1 : E.ratio < 1
  rmax : 0 ≤ E.rmax
  rmin : 0 ≤ E.rmin
  U : ∀ k, 0 ≤ E.U k ∧ E.U k < 1
  surf : ∀ x, ∃ s, E.q.surf x = some s ∧ 0 ≤ s
  edge : ∀ x, ∃ s, E.q.edge x = some s ∧ 0 ≤ s
  size : ∀ x, ∃ s, E.q.size x = some s ∧ 0 ≤ s

/-- The corner sphere counts as non-smooth from `x` (its normal is zero): it is away from `x`, or the threshold is at least one. -/
def CornerSeen (E : EdgeSetup) (x : Nat → ℝ) (k : Nat) : Prop := (E.tol < euclid 3 x (E.corner.store.pts k) ∧ 0 ≤ E.th) ∨ 1 ≤ E.th

/-- The bounds on the radius `ρ` of a sphere centred at `x`. -/
structure EdgeSize (E : EdgeSetup) (x : Nat → ℝ) (ρ : ℝ) : Prop where
  rmax : ρ ≤ max E.rmax E.rmin
  surf : ∀ h : ℝ, E.q.surf x = some (h : WithTop ℝ) → ρ ≤ max (0.4 * h) E.rmin
  edge : ∀ h : ℝ, E.q.edge x = some (h : WithTop ℝ) → ρ ≤ max (0.4 * h) E.rmin
  corner : ∀ k, k < E.corner.store.num → CornerSeen E x k → ρ ≤ max (0.4 * euclid 3 x (E.corner.store.pts k)) E.rmin
  size : ∀ h : ℝ, E.q.size x = some (h : WithTop ℝ) → ρ ≤ h

theorem EdgeSize.mono {E : EdgeSetup} {x : Nat → ℝ} {a b : ℝ} (h : EdgeSize E x b) (hab : a ≤ b) : EdgeSize E x a :=
  ⟨hab.trans h.rmax, fun t ht => hab.trans (h.surf t ht), fun t ht => hab.trans (h.edge t ht), fun k hk hs => hab.trans (h.corner k hk hs),
    fun t ht => hab.trans (h.size t ht)⟩

/-- The sphere is centred on the sharp edge recorded for it and its radius obeys the bounds there. -/
def OnItsEdge (E : EdgeSetup) (s : Nat → ℝ) (f : Nat) : Prop :=
  f < E.S.numFaces ∧ ∃ y, InSegment (E.S.point (E.S.corner f 0)) (E.S.point (E.S.corner f 1)) y ∧ (∀ d, d < 3 → s d = y d) ∧ EdgeSize E y (s 3)

/-! ## The radius of a new sphere -/

theorem limitNear_le (P : PointStore ℝ) (L β : ℝ) (x : Nat → ℝ) (l : List Nat) (sz : WithTop ℝ) : limitNear P L β x l sz ≤ sz := by
  induction l generalizing sz with
  | nil => exact le_rfl
  | cons s l ih => exact (ih _).trans ((min_le_left _ _).trans (min_le_left _ _))

theorem limitNear_nonneg {P : PointStore ℝ} {L β : ℝ} (hL : 0 ≤ L) (hβ : 0 ≤ β) (x : Nat → ℝ) (l : List Nat) (hl : ∀ s ∈ l, 0 ≤ radius P s) (sz : WithTop ℝ)
    (h : 0 ≤ sz) : 0 ≤ limitNear P L β x l sz := by
  induction l generalizing sz with
  | nil => exact h
  | cons s l ih =>
    have hd : 0 ≤ distance 3 x (P.pts s) := by rw [distance_eq]; exact euclid_nonneg _ _ _
    have hr := hl s (by simp)
    exact ih (fun t ht => hl t (by simp [ht])) _ (le_min (le_min h (WithTop.coe_le_coe.2 (div_nonneg hd hβ)))
      (WithTop.coe_le_coe.2 (add_nonneg hr (mul_nonneg hL hd))))

/-- Every sphere of the list limits the radius. -/
theorem limitNear_mem {P : PointStore ℝ} {L β : ℝ} {x : Nat → ℝ} {l : List Nat} {s : Nat} (hs : s ∈ l) (sz : WithTop ℝ) :
    limitNear P L β x l sz ≤ ((distance 3 x (P.pts s) / β : ℝ) : WithTop ℝ) ∧
      limitNear P L β x l sz ≤ ((radius P s + L * distance 3 x (P.pts s) : ℝ) : WithTop ℝ) := by
  induction l generalizing sz with
  | nil => simp at hs
  | cons a l ih =>
    rcases List.mem_cons.1 hs with rfl | hs
    · have h := limitNear_le P L β x l (min (min sz ((distance 3 x (P.pts s) / β : ℝ) : WithTop ℝ)) ((radius P s + L * distance 3 x (P.pts s) : ℝ) : WithTop ℝ))
      exact ⟨h.trans ((min_le_left _ _).trans (min_le_right _ _)), h.trans (min_le_right _ _)⟩
    · exact ih hs _

theorem boundRadius_spec (sz size : WithTop ℝ) (rmax rmin : ℝ) :
    boundRadius sz size rmax rmin ≤ max rmax rmin ∧ (∀ b : ℝ, sz ≤ (b : WithTop ℝ) → boundRadius sz size rmax rmin ≤ max b rmin) ∧
      (∀ h : ℝ, size = (h : WithTop ℝ) → boundRadius sz size rmax rmin ≤ h) ∧
      (0 ≤ rmax → 0 ≤ rmin → 0 ≤ sz → 0 ≤ size → 0 ≤ boundRadius sz size rmax rmin) := by
  obtain ⟨r, hr⟩ : ∃ r : ℝ, r = (match sz with | none => rmax | some r => if r > rmax then rmax else r) := ⟨_, rfl⟩
  have hc : boundRadius sz size rmax rmin = capAt (if r < rmin then rmin else r) size := by rw [hr]; rfl
  have h1 : r ≤ rmax := by
    rw [hr]; split
    · exact le_rfl
    · split <;> linarith
  have h2 : ∀ b : ℝ, sz ≤ (b : WithTop ℝ) → r ≤ b := by
    intro b hb
    cases sz with
    | top => exact absurd hb (by simp)
    | coe a =>
      have hb : a ≤ b := WithTop.coe_le_coe.1 hb
      rw [hr]
      show (if a > rmax then rmax else a) ≤ b
      split <;> linarith
  have h3 : 0 ≤ rmax → 0 ≤ sz → 0 ≤ r := by
    intro hm hs
    cases sz with
    | top => rw [hr]; exact hm
    | coe a =>
      have hs : 0 ≤ a := WithTop.coe_le_coe.1 hs
      rw [hr]
      show 0 ≤ (if a > rmax then rmax else a)
      split <;> linarith
  have hi : ∀ b, r ≤ b → (if r < rmin then rmin else r) ≤ max b rmin := by
    intro b hb; split
    · exact le_max_right _ _
    · exact hb.trans (le_max_left _ _)
  rw [hc]
  refine ⟨(capAt_le _ _).trans (hi _ h1), fun b hb => (capAt_le _ _).trans (hi _ (h2 b hb)), fun h hh => ?_, fun hm hn hs hz => ?_⟩
  · rw [hh, capAt_coe]
    generalize (if r < rmin then rmin else r) = a
    split <;> linarith
  · refine le_capAt ?_ fun h hh => ?_
    · split
      · exact hn
      · exact h3 hm hs
    · rw [hh] at hz; exact WithTop.coe_le_coe.1 hz

theorem cornerClearance_spec {E : EdgeSetup} (hE : E.Ok) (x : Nat → ℝ) :
    ∃ h, cornerClearance E x = some h ∧ 0 ≤ h ∧
      (∀ k, k < E.corner.store.num → CornerSeen E x k → h ≤ ((euclid 3 x (E.corner.store.pts k) : ℝ) : WithTop ℝ)) ∧
      (h = ⊤ ∨ ∃ k, k < E.corner.store.num ∧ h = ((euclid 3 x (E.corner.store.pts k) : ℝ) : WithTop ℝ)) := by
  obtain ⟨c, b, e, h⟩ := C06_closest_is_exhaustive E.corner.store E.corner.links hE.corner.tree
    (fun k => decide (¬ (if distance 3 x (E.corner.store.pts k) > E.tol then (0 : ℝ) else 1) > E.th)) x false ⊤ le_top
  have hsel : ∀ k, CornerSeen E x k → decide (¬ (if distance 3 x (E.corner.store.pts k) > E.tol then (0 : ℝ) else 1) > E.th) = true := by
    intro k hk
    rw [decide_eq_true_eq, distance_eq]
    rcases hk with ⟨h1, h2⟩ | h2
    · rw [if_pos h1]; exact not_lt.2 h2
    · split
      · exact not_lt.2 (by linarith)
      · exact not_lt.2 h2
  refine ⟨b, by unfold cornerClearance; rw [e], ?_, fun k hk hs => ?_, ?_⟩
  · rcases h with ⟨-, -, h, -⟩ | ⟨-, h, -⟩
    · rw [h]; exact WithTop.coe_le_coe.2 (euclid_nonneg _ _ _)
    · rw [h]; exact le_top
  · rw [hE.corner.dim] at h
    rcases h with ⟨-, -, h, -, hall⟩ | ⟨-, h, hall⟩
    · rw [h]; exact WithTop.coe_le_coe.2 (hall k hk (hsel k hs))
    · rw [h]; exact hall k hk (hsel k hs)
  · rw [hE.corner.dim] at h
    rcases h with ⟨hc, -, h, -⟩ | ⟨-, h, -⟩
    · exact .inr ⟨c, hc, h⟩
    · exact .inl h

theorem scaleSz_nonneg {h : WithTop ℝ} (hh : 0 ≤ h) : 0 ≤ scaleSz h :=
  le_scaleSz (v := 0) fun a ha => by subst ha; have : (0 : ℝ) ≤ a := WithTop.coe_le_coe.1 hh; linarith

theorem scaleSz_le {h : WithTop ℝ} {a : ℝ} (hh : h ≤ (a : WithTop ℝ)) : scaleSz h ≤ ((0.4 * a : ℝ) : WithTop ℝ) := by
  cases h with
  | top => exact absurd hh (by simp)
  | coe b =>
    have hb : b ≤ a := WithTop.coe_le_coe.1 hh
    exact WithTop.coe_le_coe.2 (by show 0.4 * b ≤ 0.4 * a; linarith)

/-- The state of the loop. -/
structure EdgeRunOk (E : EdgeSetup) (r : EdgeRun) : Prop where
  wf : r.tree.asSTree.Wf
  cap : r.tree.num = 0 ∨ r.tree.num < r.tree.cap
  len : r.ids.length = r.tree.num
  stale : 0 < r.tree.num → ∃ ρ, r.stale = some ρ ∧ 0 ≤ ρ
  on : ∀ (i : Nat) (f : Nat), r.ids[i]? = some f → OnItsEdge E (r.tree.pts i) f

theorem nearDart_spec {E : EdgeSetup} (hE : E.Ok) {r : EdgeRun} (hr : EdgeRunOk E r) (x : Nat → ℝ) :
    ∃ l, nearDart E r x = some l ∧ ∀ s ∈ l, s < r.tree.num := by
  unfold nearDart
  split
  · next hn =>
    obtain ⟨ρ, e, h0⟩ := hr.stale (by omega)
    have ht : SphereTree r.tree.spheres r.tree.links := hr.wf.resolve_left (by show r.tree.num ≠ 0; omega)
    obtain ⟨l, el, -, hl, -⟩ := C28_overlapping_spheres r.tree.spheres r.tree.links ht E.L hE.L0 hE.L1 x ρ h0
    rw [e]
    exact ⟨l, el, fun s hs => (hl s hs).1⟩
  · exact ⟨[], rfl, by simp⟩

theorem EdgeRunOk.radius_nonneg {E : EdgeSetup} {r : EdgeRun} (hr : EdgeRunOk E r) {s : Nat} (hs : s < r.tree.num) : 0 ≤ r.tree.pts s 3 :=
  (hr.wf.resolve_left (by show r.tree.num ≠ 0; omega)).nonneg s hs

theorem edgeRadius_spec {E : EdgeSetup} (hE : E.Ok) {r : EdgeRun} (hr : EdgeRunOk E r) (x : Nat → ℝ) :
    ∃ ρ, edgeRadius E r x = some ρ ∧ 0 ≤ ρ ∧ EdgeSize E x ρ := by
  obtain ⟨s, es, hs⟩ := hE.surf x
  obtain ⟨e, ee, he⟩ := hE.edge x
  obtain ⟨z, ez, hz⟩ := hE.size x
  obtain ⟨c, ec, hc0, hc, -⟩ := cornerClearance_spec hE x
  obtain ⟨l, el, hl⟩ := nearDart_spec hE hr x
  set β := Real.sqrt (1 - E.ratio * E.ratio)
  set lim := limitNear r.tree.spheres E.L β x l (min (scaleSz e) (scaleSz c)) with hlim
  have h1 : lim ≤ scaleSz e := (limitNear_le ..).trans (min_le_left _ _)
  have h2 : lim ≤ scaleSz c := (limitNear_le ..).trans (min_le_right _ _)
  obtain ⟨b1, b2, b3, b4⟩ := boundRadius_spec (min (scaleSz s) lim) z E.rmax E.rmin
  refine ⟨boundRadius (min (scaleSz s) lim) z E.rmax E.rmin, by unfold edgeRadius; rw [es, ee, ec, el, ez], ?_, b1, fun h hh => ?_, fun h hh => ?_, fun k hk hsn => ?_, fun h hh => ?_⟩
  · refine b4 hE.rmax hE.rmin (le_min (scaleSz_nonneg hs) ?_) hz
    refine limitNear_nonneg hE.L0 (Real.sqrt_nonneg _) x l (fun t ht => ?_) _ (le_min (scaleSz_nonneg he) (scaleSz_nonneg hc0))
    exact hr.radius_nonneg (hl t ht)
  · rw [es] at hh
    exact b2 _ ((min_le_left _ _).trans (scaleSz_le (Option.some.inj hh).le))
  · rw [ee] at hh
    exact b2 _ ((min_le_right _ _).trans (h1.trans (scaleSz_le (Option.some.inj hh).le)))
  · exact b2 _ ((min_le_right _ _).trans (h2.trans (scaleSz_le (hc k hk hsn))))
  · rw [ez] at hh
    exact b3 h (Option.some.inj hh)

/-! ## One dart -/

theorem storeEdgeSphere_spec {E : EdgeSetup} (hE : E.Ok) {r : EdgeRun} (hr : EdgeRunOk E r) {x : Nat → ℝ} {f : Nat} (hf : f < E.S.numFaces)
    (hx : InSegment (E.S.point (E.S.corner f 0)) (E.S.point (E.S.corner f 1)) x) :
    ∃ r', storeEdgeSphere E r x f = some r' ∧ EdgeRunOk E r' ∧ Grows r.tree.asSTree r'.tree.asSTree := by
  obtain ⟨ρ, eρ, h0, hsz⟩ := edgeRadius_spec hE hr x
  obtain ⟨t, et, ht, hcap, hnum, hold, hnew⟩ := SmartTree.add_sphere hr.wf hr.cap E.rb (upd x 3 ρ) (by simpa [upd] using h0)
  refine ⟨⟨t, r.ids ++ [f], some ρ, r.pos⟩, by unfold storeEdgeSphere; simp only [eρ, et], ⟨.inr ht, .inr hcap, ?_, fun _ => ⟨ρ, rfl, h0⟩, fun i g hg => ?_⟩, fun s hs => ?_⟩
  · show (r.ids ++ [f]).length = t.num
    rw [hnum, List.length_append, hr.len]; rfl
  · have hg : (r.ids ++ [f])[i]? = some g := hg
    show OnItsEdge E (t.pts i) g
    rcases Nat.lt_or_ge i r.ids.length with h | h
    · rw [List.getElem?_append_left h] at hg
      rw [hold i (by rw [← hr.len]; exact h)]
      exact hr.on i g hg
    · rw [List.getElem?_append_right h] at hg
      have : i = r.ids.length := by
        by_contra hne
        rw [List.getElem?_eq_none (by simp; omega)] at hg
        simp at hg
      subst this
      simp at hg
      subst hg
      rw [hr.len, hnew]
      exact ⟨hf, x, hx, fun d hd => by simp [upd, show d ≠ 3 by omega], by simpa [upd] using hsz⟩
  · have hs : s < r.tree.num := hs
    exact ⟨s, by show s < t.num; omega, fun d _ => by show t.pts s d = r.tree.pts s d; rw [hold s hs]⟩

theorem Grows.rfl' (t : STree) : Grows t t := fun s hs => ⟨s, hs, fun _ _ => rfl⟩

theorem Grows.trans' {a b c : STree} (h : Grows a b) (k : Grows b c) : Grows a c := fun s hs => by
  obtain ⟨s1, h1, e1⟩ := h s hs
  obtain ⟨s2, h2, e2⟩ := k s1 h1
  exact ⟨s2, h2, fun d hd => (e2 d hd).trans (e1 d hd)⟩

theorem dartCovered_spec {E : EdgeSetup} (hE : E.Ok) {r : EdgeRun} (hr : EdgeRunOk E r) (x : Nat → ℝ) : ∃ b, dartCovered E r x = some b := by
  have key : ∀ (t : STree) (_ : t.Wf) (α : ℝ), 0 ≤ α → α < 1 → ∃ b, pointCovered t.store t.links E.L α x = some b := by
    intro t ht α h0 h1
    rcases ht with ht | ht
    · exact ⟨false, by unfold pointCovered; rw [if_pos ht]⟩
    · obtain ⟨b, e, -⟩ := C24_point_covered t.store t.links ht E.L α hE.L0 hE.L1 h0 h1 x
      exact ⟨b, e⟩
  obtain ⟨b, e⟩ := key E.corner (.inr hE.corner) 0 le_rfl one_pos
  obtain ⟨b', e'⟩ := key r.tree.asSTree hr.wf E.ratio hE.ratio0 hE.ratio1
  unfold dartCovered
  rw [e]
  cases b with
  | true => exact ⟨true, rfl⟩
  | false => exact ⟨b', e'⟩

theorem EdgeRunOk.at_pos {E : EdgeSetup} {r : EdgeRun} (hr : EdgeRunOk E r) (p : Nat) : EdgeRunOk E { r with pos := p } :=
  ⟨hr.wf, hr.cap, hr.len, hr.stale, hr.on⟩

theorem decodesE_parent {S : PoolSurface (Nat → ℝ)} {level : Nat} {e : PoolEntry ℝ} {k} (h : edgeCorners midpoint3 S level e = some k) :
    e.parent < S.numFaces := by
  unfold edgeCorners at h
  by_contra hn
  have : S.at e.parent 0 = none := by unfold PoolSurface.at; rw [if_neg (fun h => hn h.1)]
  rw [this] at h
  simp at h

theorem edgeDart_spec {E : EdgeSetup} (hE : E.Ok) {r : EdgeRun} (hr : EdgeRunOk E r) (level : Nat) {pool : List (PoolEntry ℝ)} (hne : pool ≠ [])
    (hd : DecodesE E.S level pool) :
    ∃ r' v, edgeDart E level pool r = some (r', v) ∧ EdgeRunOk E r' ∧ Grows r.tree.asSTree r'.tree.asSTree := by
  obtain ⟨x, f, e, ⟨p, hp, rfl⟩, hx⟩ := C69_dart_on_its_edge E.S level pool hne hd (poolTable pool) (E.U r.pos) (E.U (r.pos + 1)) (hE.U _).1 (hE.U _).2
  obtain ⟨k, hk⟩ := hd p hp
  obtain ⟨b, eb⟩ := dartCovered_spec hE hr x
  unfold edgeDart
  simp only [e, eb]
  cases b with
  | true => exact ⟨_, _, rfl, hr.at_pos _, Grows.rfl' _⟩
  | false =>
    obtain ⟨r', e', h', g'⟩ := storeEdgeSphere_spec hE (hr.at_pos (r.pos + 2)) (decodesE_parent hk) hx
    simp only [e']
    exact ⟨_, _, rfl, h', g'⟩

theorem coveredE_grows {t t' c : STree} {k : ℝ} {x : Nat → ℝ} (h : Grows t t') (hx : CoveredE t c k x) : CoveredE t' c k x :=
  hx.imp (inBall_grows h) id

/-- The sampling loop ends only with the edges covered. -/
theorem edgeMps_spec {E : EdgeSetup} (hE : E.Ok) (fuel : Nat) : ∀ (level : Nat) (pool : List (PoolEntry ℝ)) (misses : Nat) (r : EdgeRun),
    EdgeRunOk E r → pool ≠ [] → DecodesE E.S level pool →
    ∃ o, edgeMps E fuel level pool misses r = some o ∧ ∀ r', o = some r' → EdgeRunOk E r' ∧ Grows r.tree.asSTree r'.tree.asSTree ∧
      ∀ x, InPoolE E.S level pool x → CoveredE r'.tree.asSTree E.corner E.ratio x := by
  induction fuel with
  | zero => exact fun level pool misses r hr hne hd => ⟨none, rfl, by simp⟩
  | succ fuel ih =>
    intro level pool misses r hr hne hd
    obtain ⟨r1, v, e1, h1, g1⟩ := edgeDart_spec hE hr level hne hd
    rw [edgeMps]
    simp only [e1]
    generalize (if v = true then 0 else misses + 1) = m
    by_cases hm : m = 100
    · rw [if_pos hm]
      obtain ⟨new, en, dn, qn⟩ := refineSeq_poolE (distance 3) E.S level (coveredEdge r1.tree.asSTree E.corner E.L E.ratio)
        (CoveredE r1.tree.asSTree E.corner E.ratio)
        (fun A B => coveredEdge_spec r1.tree.asSTree E.corner h1.wf (.inr hE.corner) E.L E.ratio hE.L0 hE.L1 hE.ratio0 hE.ratio1 A B) pool hd
      rw [en]
      simp only
      split
      · next h0 =>
        have h0 : new = [] := List.eq_nil_of_length_eq_zero h0
        subst h0
        refine ⟨_, rfl, fun r' hr' => ?_⟩
        obtain rfl := Option.some.inj hr'
        refine ⟨h1, g1, fun x hx => (qn x hx).resolve_right fun ⟨e, he, _⟩ => by simp at he⟩
      · next h0 =>
        obtain ⟨o, eo, ho⟩ := ih (level + 1) new 0 r1 h1 (fun h => h0 (by rw [h]; rfl)) dn
        refine ⟨o, eo, fun r' hr' => ?_⟩
        obtain ⟨h2, g2, c2⟩ := ho r' hr'
        exact ⟨h2, g1.trans' g2, fun x hx => (qn x hx).elim (coveredE_grows g2) (c2 x)⟩
    · rw [if_neg hm]
      obtain ⟨o, eo, ho⟩ := ih level pool m r1 h1 hne hd
      refine ⟨o, eo, fun r' hr' => ?_⟩
      obtain ⟨h2, g2, c2⟩ := ho r' hr'
      exact ⟨h2, g1.trans' g2, c2⟩

/-! ## The validation of the sizes -/

theorem nearest_unique {x a b q q' : V3} (h1 : OnSegment a b q) (h2 : ∀ y, OnSegment a b y → dist3 x q ≤ dist3 x y) (h1' : OnSegment a b q')
    (h2' : ∀ y, OnSegment a b y → dist3 x q' ≤ dist3 x y) : q = q' := by
  obtain ⟨t, t0, t1, ht⟩ := h1
  obtain ⟨u, u0, u1, hu⟩ := h1'
  have hm : OnSegment a b fun d => a d + (t + u) / 2 * (b d - a d) := ⟨(t + u) / 2, by linarith, by linarith, fun d => rfl⟩
  have k1 := (dist3_le_iff _ _ _).1 (h2 _ hm)
  have k2 := (dist3_le_iff _ _ _).1 (h2' _ hm)
  simp only [dot3, ht, hu] at k1 k2
  have key : (t - u) ^ 2 * ((b 0 - a 0) ^ 2 + (b 1 - a 1) ^ 2 + (b 2 - a 2) ^ 2) ≤ 0 := by nlinarith
  have hz : ∀ d, (t - u) * (b d - a d) = 0 := by
    have e : ((t - u) * (b 0 - a 0)) ^ 2 + ((t - u) * (b 1 - a 1)) ^ 2 + ((t - u) * (b 2 - a 2)) ^ 2 ≤ 0 := by nlinarith
    have p0 := sq_nonneg ((t - u) * (b 0 - a 0)); have p1 := sq_nonneg ((t - u) * (b 1 - a 1)); have p2 := sq_nonneg ((t - u) * (b 2 - a 2))
    have z0 : (t - u) * (b 0 - a 0) = 0 := pow_eq_zero_iff (two_ne_zero) |>.1 (le_antisymm (by linarith) p0)
    have z1 : (t - u) * (b 1 - a 1) = 0 := pow_eq_zero_iff (two_ne_zero) |>.1 (le_antisymm (by linarith) p1)
    have z2 : (t - u) * (b 2 - a 2) = 0 := pow_eq_zero_iff (two_ne_zero) |>.1 (le_antisymm (by linarith) p2)
    intro d
    fin_cases d
    exacts [z0, z1, z2]
  funext d
  rw [ht, hu]
  linarith [hz d]

/-- The edge from `a` to `b` is a narrow region for a sphere centred at `x`: `q` is its nearest point, not within the tolerance and not along the edge. -/
structure NarrowAt (E : EdgeSetup) (x a b q : V3) : Prop where
  long : 1e-10 ≤ Real.sqrt (dot3 (fun d => b d - a d) fun d => b d - a d)
  on : OnSegment a b q
  near : ∀ y, OnSegment a b y → dist3 x q ≤ dist3 x y
  away : 1e-10 ≤ dist3 x q
  tol : E.tol ≤ 0.4 * dist3 x q
  across : |dot3 (fun d => b d - a d) fun d => x d - q d| ≤ E.th * (Real.sqrt (dot3 (fun d => b d - a d) fun d => b d - a d) * dist3 x q)

theorem dist3_eq_sqrt (x q : V3) : dist3 x q = Real.sqrt (dot3 (fun d => x d - q d) fun d => x d - q d) := by
  unfold dist3 dot3
  congr 1
  simp only [Fin.sum_univ_three]
  ring

theorem narrowLimit_some {E : EdgeSetup} {x a b q : V3} (h : NarrowAt E x a b q) :
    narrowLimit E.th E.tol E.rmin x a b = some (max (0.4 * dist3 x q) E.rmin) := by
  set w : V3 := fun d => b d - a d with hw
  have hne : a ≠ b := by
    rintro rfl
    have := h.long
    simp [dot3] at this
    norm_num at this
  obtain ⟨q', e, ho, hn⟩ := C42_segment_projection x a b hne
  obtain rfl := nearest_unique h.on h.near ho hn
  set v : V3 := fun d => x d - q d with hv
  have hdv : dist3 x q = Real.sqrt (dot3 v v) := dist3_eq_sqrt x q
  have n1 : normalize3 w = (fun d => w d / Real.sqrt (dot3 w w), true) := by unfold normalize3; rw [if_neg (not_lt.2 h.long)]
  have n2 : normalize3 v = (fun d => v d / Real.sqrt (dot3 v v), true) := by unfold normalize3; rw [if_neg (not_lt.2 (hdv ▸ h.away))]
  have pw : 0 < Real.sqrt (dot3 w w) := lt_of_lt_of_le (by norm_num) h.long
  have pv : 0 < Real.sqrt (dot3 v v) := lt_of_lt_of_le (by norm_num) (hdv ▸ h.away)
  have hdot : dot3 (fun d => w d / Real.sqrt (dot3 w w)) (fun d => v d / Real.sqrt (dot3 v v)) = dot3 w v / (Real.sqrt (dot3 w w) * Real.sqrt (dot3 v v)) := by
    simp only [dot3]; field_simp
  have hac : ¬ |dot3 w v / (Real.sqrt (dot3 w w) * Real.sqrt (dot3 v v))| > E.th := by
    rw [abs_div, abs_of_pos (mul_pos pw pv), gt_iff_lt, not_lt, div_le_iff₀ (mul_pos pw pv), ← hdv]
    exact h.across
  unfold narrowLimit
  rw [if_pos (by rw [n1]), e]
  simp only
  rw [if_pos (by rw [n2]), n1, n2]
  simp only
  rw [hdot, if_neg hac, if_neg (by rw [mul_comm]; exact not_lt.2 h.tol), mul_comm]
  congr 1
  split
  · next hlt => exact (max_eq_right hlt.le).symm
  · next hlt => exact (max_eq_left (not_lt.1 hlt)).symm

theorem narrowLimit_nonneg {th tol rmin : ℝ} (h : 0 ≤ rmin) {x a b : V3} {l : ℝ} (e : narrowLimit th tol rmin x a b = some l) : 0 ≤ l := by
  have key : ∀ k : ℝ, 0 ≤ (if k < rmin then rmin else k) := fun k => by split <;> linarith
  unfold narrowLimit at e
  split at e
  · split at e
    · simp at e
    · split at e
      · split at e
        · simp at e
        · split at e
          · simp at e
          · rw [← Option.some.inj e]; exact key _
      · simp at e
  · simp at e

theorem shrinkTo_spec {l : Option ℝ} (hl : ∀ v, l = some v → 0 ≤ v) (s : ℝ × Bool) (h0 : 0 ≤ s.1) :
    0 ≤ (shrinkTo l s).1 ∧ (shrinkTo l s).1 ≤ s.1 ∧ ((shrinkTo l s).2 = false → shrinkTo l s = s ∧ ∀ v, l = some v → s.1 < (1 + 1e-8) * v) := by
  cases l with
  | none => exact ⟨h0, le_rfl, fun _ => ⟨rfl, by simp⟩⟩
  | some v =>
    have hv := hl v rfl
    unfold shrinkTo
    simp only
    split
    · next h => exact ⟨h0, le_rfl, fun _ => ⟨rfl, fun w hw => by rw [← Option.some.inj hw]; exact h⟩⟩
    · next h => exact ⟨hv, by show v ≤ s.1; nlinarith, by simp⟩

theorem narrowNear_spec {E : EdgeSetup} (hE : E.Ok) {ids : List Nat} (hids : ∀ (j : Nat) (f : Nat), ids[j]? = some f → f < E.S.numFaces) (x : Nat → ℝ) (ei : Nat)
    (l : List Nat) : (∀ j ∈ l, j < ids.length) → ∀ s : ℝ × Bool, 0 ≤ s.1 →
    ∃ s', narrowNear E ids x ei l s = some s' ∧ 0 ≤ s'.1 ∧ s'.1 ≤ s.1 ∧ (s'.2 = false → s' = s ∧ ∀ j ∈ l, ∀ ej, ids[j]? = some ej → ei ≠ ej → ∀ v,
      narrowLimit E.th E.tol E.rmin (toV3 x) (toV3 (E.S.point (E.S.corner ej 0))) (toV3 (E.S.point (E.S.corner ej 1))) = some v → s.1 < (1 + 1e-8) * v) := by
  induction l with
  | nil => exact fun _ s h => ⟨s, rfl, h, le_rfl, fun _ => ⟨rfl, by simp⟩⟩
  | cons j l ih =>
    intro hl s h0
    have hj := hl j (by simp)
    have ej : ids[j]? = some ids[j] := List.getElem?_eq_getElem hj
    have hat : ∀ i, i < 2 → E.S.at ids[j] i = some (E.S.point (E.S.corner ids[j] i)) := fun i hi => by
      unfold PoolSurface.at; rw [if_pos ⟨hids j _ ej, hE.valid _ (hids j _ ej) i hi⟩]
    rw [narrowNear]
    simp only [ej]
    by_cases he : ei = ids[j]
    · rw [if_pos he]
      obtain ⟨s', e, a1, a2, a3⟩ := ih (fun k hk => hl k (by simp [hk])) s h0
      refine ⟨s', e, a1, a2, fun hf => ⟨(a3 hf).1, fun k hk ek hek hne => ?_⟩⟩
      rcases List.mem_cons.1 hk with rfl | hk
      · rw [ej] at hek; exact absurd (he.trans (Option.some.inj hek)) hne
      · exact (a3 hf).2 k hk ek hek hne
    · rw [if_neg he]
      simp only [hat 0 (by omega), hat 1 (by omega)]
      obtain ⟨b1, b2, b3⟩ := shrinkTo_spec (l := narrowLimit E.th E.tol E.rmin (toV3 x) (toV3 (E.S.point (E.S.corner ids[j] 0))) (toV3 (E.S.point (E.S.corner ids[j] 1))))
        (fun v hv => narrowLimit_nonneg hE.rmin hv) s h0
      obtain ⟨s', e, a1, a2, a3⟩ := ih (fun k hk => hl k (by simp [hk])) _ b1
      refine ⟨s', e, a1, a2.trans b2, fun hf => ?_⟩
      obtain ⟨c1, c2⟩ := a3 hf
      obtain ⟨d1, d2⟩ := b3 (by rw [← c1]; exact hf)
      rw [d1] at c1 c2
      refine ⟨c1, fun k hk ek hek hne => ?_⟩
      rcases List.mem_cons.1 hk with rfl | hk
      · rw [ej] at hek
        rw [← Option.some.inj hek]
        exact d2
      · exact c2 k hk ek hek hne

theorem setAttr_same (Q : PointStore ℝ) (i : Nat) : setAttr Q i 0 (radius Q i) = Q := by
  have : (setAttr Q i 0 (radius Q i)).pts = Q.pts := by
    funext k d
    simp only [setAttr, upd]
    split
    · next h =>
      subst h
      show (if d = Q.dim + 0 then radius Q k else Q.pts k d) = Q.pts k d
      split
      · next h => rw [h]; rfl
      · rfl
    · rfl
  cases Q
  simp only [setAttr] at this ⊢
  rw [this]

theorem SphereTree.setRadius {Q : PointStore ℝ} {ln : Links} (h : SphereTree Q ln) (i : Nat) {v : ℝ} (hv : 0 ≤ v) : SphereTree (setAttr Q i 0 v) ln := by
  refine ⟨⟨h.tree.1, h.tree.2.1, BuiltTree.attributed i 0 v h.tree.2.2⟩, h.dim, fun k hk => ?_⟩
  have hr : (setAttr Q i 0 v).pts k 3 = VoroCrust.radius (setAttr Q i 0 v) k := by
    show _ = (setAttr Q i 0 v).pts k Q.dim
    rw [h.dim]
  rw [hr, radius_setAttr]
  split
  · exact hv
  · rw [h.radius]; exact h.nonneg k hk

theorem narrowPass_spec {E : EdgeSetup} (hE : E.Ok) {ids : List Nat} (hids : ∀ (j : Nat) (f : Nat), ids[j]? = some f → f < E.S.numFaces) {P : PointStore ℝ} {ln : Links}
    (hP : SphereTree P ln) (hlen : ids.length = P.num) (m : Nat) (hm : m ≤ P.num) :
    ∃ Q sh, narrowPass E ln ids P m = some (Q, sh) ∧ SameBut P Q ∧ SphereTree Q ln ∧ (∀ i, radius Q i ≤ radius P i) ∧
      (sh = false → Q = P ∧ ∀ i, i < m → ∀ ei, ids[i]? = some ei → ∀ l, overlappingSpheres P ln E.L (P.pts i) (radius P i) = some l → ∀ j ∈ l, ∀ ej, ids[j]? = some ej →
        ei ≠ ej → ∀ v, narrowLimit E.th E.tol E.rmin (toV3 (P.pts i)) (toV3 (E.S.point (E.S.corner ej 0))) (toV3 (E.S.point (E.S.corner ej 1))) = some v →
          radius P i < (1 + 1e-8) * v) := by
  induction m with
  | zero => exact ⟨P, false, rfl, .refl P, hP, fun _ => le_rfl, fun _ => ⟨rfl, fun i hi => by omega⟩⟩
  | succ m ih =>
    obtain ⟨Q, sh, e, hs, ht, hle, hf⟩ := ih (by omega)
    have hmi : m < ids.length := by omega
    have em : ids[m]? = some ids[m] := List.getElem?_eq_getElem hmi
    have hr0 : 0 ≤ radius Q m := by rw [ht.radius]; exact ht.nonneg m (by rw [hs.num]; omega)
    obtain ⟨l, el, -, hl, -⟩ := C28_overlapping_spheres Q ln ht E.L hE.L0 hE.L1 (Q.pts m) (radius Q m) hr0
    obtain ⟨s', e', a1, a2, a3⟩ := narrowNear_spec hE hids (Q.pts m) ids[m] l (fun j hj => by rw [hlen, ← hs.num]; exact (hl j hj).1) (radius Q m, sh) hr0
    refine ⟨setAttr Q m 0 s'.1, s'.2, by rw [narrowPass]; simp only [e, em, el, e'], hs.trans (sameBut_setAttr Q m _), ht.setRadius m a1, fun i => ?_, fun hfalse => ?_⟩
    · rw [radius_setAttr]
      split
      · next h => subst h; exact a2.trans (hle _)
      · exact hle i
    · obtain ⟨c1, c2⟩ := a3 hfalse
      rw [c1] at hfalse
      obtain ⟨rfl, hold⟩ := hf hfalse
      refine ⟨by rw [c1]; exact setAttr_same Q m, fun i hi ei hei l' hl' j hj ej hej hne v hv => ?_⟩
      rcases Nat.lt_or_ge i m with h | h
      · exact hold i h ei hei l' hl' j hj ej hej hne v hv
      · obtain rfl : i = m := by omega
        rw [em] at hei
        rw [el] at hl'
        obtain rfl := Option.some.inj hl'
        exact c2 j hj ej hej (by rw [Option.some.inj hei]; exact hne) v hv

/-! ## The loop -/

/-- What holds when `generate_edge_spheres` returns. -/
structure EdgeResult (E : EdgeSetup) (r : EdgeRun) : Prop where
  tree : SphereTree r.tree.spheres r.tree.links
  covered : ∀ f, f < E.S.numFaces → ∀ x, InSegment (E.S.point (E.S.corner f 0)) (E.S.point (E.S.corner f 1)) x →
    InBall r.tree.asSTree (Real.sqrt (1 - E.ratio ^ 2)) x ∨ InBall E.corner 1 x
  ids : r.ids.length = r.tree.num
  on : ∀ (i : Nat) (f : Nat), r.ids[i]? = some f → OnItsEdge E (r.tree.pts i) f
  lip : ∀ i j, i < r.tree.num → j < r.tree.num → euclid 3 (r.tree.pts i) (r.tree.pts j) < 2 * r.tree.pts i 3 →
    r.tree.pts i 3 ≤ r.tree.pts j 3 + E.L * euclid 3 (r.tree.pts i) (r.tree.pts j)
  lipschitz : 1 / 2 ≤ E.L → LipschitzRadii r.tree.spheres E.L
  narrow : LipschitzRadii r.tree.spheres E.L → ∀ (i j ei ej : Nat), r.ids[i]? = some ei → r.ids[j]? = some ej → ei ≠ ej →
    euclid 3 (r.tree.pts i) (r.tree.pts j) < r.tree.pts i 3 + r.tree.pts j 3 →
    ∀ q, NarrowAt E (toV3 (r.tree.pts i)) (toV3 (E.S.point (E.S.corner ej 0))) (toV3 (E.S.point (E.S.corner ej 1))) q →
      r.tree.pts i 3 < (1 + 1e-8) * max (0.4 * dist3 (toV3 (r.tree.pts i)) q) E.rmin

theorem EdgeRunOk.shrunk {E : EdgeSetup} {r : EdgeRun} (hr : EdgeRunOk E r) {P : PointStore ℝ} (hs : SameBut r.tree.spheres P) (hP : SphereTree P r.tree.links)
    (hle : ∀ i, i < r.tree.num → P.pts i 3 ≤ r.tree.pts i 3) : EdgeRunOk E { r with tree := { r.tree with pts := P.pts } } := by
  refine ⟨.inr ?_, hr.cap, hr.len, hr.stale, fun i f hi => ?_⟩
  · show SphereTree ({ r.tree with pts := P.pts } : SmartTree ℝ).spheres r.tree.links
    rw [SmartTree.Wf_pts hs]; exact hP
  · have hi' : i < r.tree.num := by rw [← hr.len]; exact (List.getElem?_eq_some_iff.1 hi).1
    obtain ⟨h1, y, h2, h3, h4⟩ := hr.on i f hi
    refine ⟨h1, y, h2, fun d hd => ?_, h4.mono (hle i hi')⟩
    rw [← h3 d hd]
    exact hs.pts i d (by show d ≠ 3; omega)

theorem edgeSphereLoop_result {E : EdgeSetup} (hE : E.Ok) (mps fuel : Nat) : ∀ r, EdgeRunOk E r → (∃ o, edgeSphereLoop E mps fuel r = some o ∧ ∀ r', o = some r' → EdgeResult E r') ∨
      (edgeSphereLoop E mps fuel r = none ∧ ∀ f, f < E.S.numFaces → ∀ x, InSegment (E.S.point (E.S.corner f 0)) (E.S.point (E.S.corner f 1)) x → InBall E.corner 1 x) := by
  induction fuel with
  | zero => exact fun r _ => .inl ⟨none, rfl, by simp⟩
  | succ fuel ih =>
    intro r hr
    obtain ⟨pool, ep, dp, qp⟩ := initialEdges_spec (distance 3) E.S hE.valid E.S.numFaces le_rfl
    have hpne : pool ≠ [] := by
      rintro rfl
      obtain ⟨e, he, -⟩ := qp 0 hE.some_edge _ ⟨1, 0, by norm_num, le_rfl, by norm_num, fun d => rfl⟩
      simp at he
    obtain ⟨o, eo, ho⟩ := edgeMps_spec hE mps 0 pool 0 r hr hpne dp
    rw [edgeSphereLoop]
    simp only [ep, eo]
    cases o with
    | none => exact .inl ⟨none, rfl, by simp⟩
    | some r1 =>
      obtain ⟨h1, -, c1⟩ := ho r1 rfl
      rcases Nat.eq_zero_or_pos r1.tree.num with hz | hnum
      · refine .inr ⟨?_, fun f hf x hx => (c1 x (qp f hf x hx)).resolve_left ?_⟩
        · simp only [C27_empty_undefined E.L r1.tree.spheres r1.tree.links hz]
        · rintro ⟨s, hs, -⟩
          exact absurd hs (by show ¬ s < r1.tree.num; omega)
      have ht1 : SphereTree r1.tree.spheres r1.tree.links := h1.wf.resolve_left (by show r1.tree.num ≠ 0; omega)
      obtain ⟨P, sh, eP, hs, hP, hle, hloc, hlip, -, hsh⟩ := C27_lipschitz_tree_partial E.L hE.L0 r1.tree.spheres r1.tree.links ht1 r1.tree.num le_rfl false
      have hP1 := h1.shrunk hs hP hle
      simp only [eP]
      cases sh with
      | true => exact ih _ hP1
      | false =>
        have hids : ∀ (j : Nat) (f : Nat), r1.ids[j]? = some f → f < E.S.numFaces := fun j f hj => (h1.on j f hj).1
        obtain ⟨Q, sh', eQ, hsQ, hQ, hleQ, hfQ⟩ := narrowPass_spec hE hids hP (by rw [hs.num]; exact h1.len) r1.tree.num (by rw [hs.num]; exact le_rfl)
        simp only [eQ]
        cases sh' with
        | true =>
          refine ih _ (h1.shrunk (hs.trans hsQ) hQ fun i hi => ?_)
          rw [← hQ.radius]
          exact (hleQ i).trans (by rw [hP.radius]; exact hle i hi)
        | false =>
          obtain ⟨rfl, hnar⟩ := hfQ rfl
          have eS : ({ r1.tree with pts := Q.pts } : SmartTree ℝ).spheres = Q := SmartTree.Wf_pts hs
          have hrad : ∀ i, i < r1.tree.num → Q.pts i 3 = r1.tree.pts i 3 := fun i hi => by
            refine le_antisymm (hle i hi) (not_lt.1 fun hlt => ?_)
            have := hsh.2 (Or.inr ⟨i, hi, hlt⟩)
            simp at this
          have hpt : ∀ i, i < r1.tree.num → ∀ d, d < 4 → Q.pts i d = r1.tree.pts i d := fun i hi d hd => by
            rcases eq_or_ne d 3 with rfl | h
            · exact hrad i hi
            · exact hs.pts i d h
          have heu : ∀ i j, euclid 3 (Q.pts i) (Q.pts j) = euclid 3 (r1.tree.pts i) (r1.tree.pts j) := fun i j =>
            euclid_congr (fun d hd => hs.pts i d (by show d ≠ 3; omega)) (fun d hd => hs.pts j d (by show d ≠ 3; omega))
          refine .inl ⟨_, rfl, fun r' hr' => ?_⟩
          obtain rfl := Option.some.inj hr'
          refine ⟨eS ▸ hP, fun f hf x hx => ?_, h1.len, hP1.on, fun i j hi hj hij => ?_, fun hL => eS ▸ hlip hL, fun hL i j ei ej hei hej hne' hov q hq => ?_⟩
          · refine coveredE_grows (t := r1.tree.asSTree) (fun s hs' => ⟨s, hs', fun d hd => hpt s hs' d hd⟩) (c1 x (qp f hf x hx))
          · have := hloc i j hi hj (by show euclid 3 (r1.tree.pts i) (r1.tree.pts j) < _; rw [← heu]; exact hij)
            show Q.pts i 3 ≤ Q.pts j 3 + E.L * euclid 3 (Q.pts i) (Q.pts j)
            rw [heu]; exact this
          · rw [eS] at hL
            have hi : i < r1.tree.num := by rw [← h1.len]; exact (List.getElem?_eq_some_iff.1 hei).1
            have hj : j < Q.num := by rw [hs.num]; show j < r1.tree.num; rw [← h1.len]; exact (List.getElem?_eq_some_iff.1 hej).1
            have hr0 : 0 ≤ Q.pts i 3 := hQ.nonneg i (by rw [hs.num]; exact hi)
            obtain ⟨l, el, -, -, hall⟩ := C28_overlapping_spheres Q r1.tree.links hP E.L hE.L0 hE.L1 (Q.pts i) (radius Q i) (by rw [hP.radius]; exact hr0)
            have hmem := hall hL j hj (by rw [hP.radius]; exact hov)
            have := hnar i hi ei hei l el j hmem ej hej hne' _ (narrowLimit_some hq)
            rwa [hP.radius] at this

theorem edgeSphereLoop_spec {E : EdgeSetup} (hE : E.Ok)
    (hne : ∃ f, f < E.S.numFaces ∧ ∃ x, InSegment (E.S.point (E.S.corner f 0)) (E.S.point (E.S.corner f 1)) x ∧ ¬ InBall E.corner 1 x) (mps fuel : Nat) :
    ∀ r, EdgeRunOk E r → ∃ o, edgeSphereLoop E mps fuel r = some o ∧ ∀ r', o = some r' → EdgeResult E r' := fun r hr => by
  refine (edgeSphereLoop_result hE mps fuel r hr).resolve_right fun h => ?_
  obtain ⟨f, hf, x, hx, hn⟩ := hne
  exact hn (h.2 f hf x hx)

theorem edgeRunOk_empty (E : EdgeSetup) : EdgeRunOk E ⟨SmartTree.empty (fun _ _ => 0) id id, [], none, 0⟩ :=
  ⟨.inl rfl, .inl rfl, rfl, fun h => absurd h (by show ¬ 0 < 0; omega), fun i f h => by simp at h⟩

/-- **C81.** Edge spheres: no step of `generate_edge_spheres` is undefined, and whenever it returns, with the final radii every point of every sharp edge lies in an edge sphere
scaled by the coverage ratio or in a corner sphere; every sphere is centred on the edge recorded for it and obeys the size bounds there; neighbouring radii obey the Lipschitz
condition (all radii if `L` is at least one half); and the radius of a sphere near another edge is at most 0.4 times its distance to that edge (or `r_min`), up to `1e-8`. -/
theorem C81_edge_spheres (E : EdgeSetup) (hE : E.Ok)
    (hne : ∃ f, f < E.S.numFaces ∧ ∃ x, InSegment (E.S.point (E.S.corner f 0)) (E.S.point (E.S.corner f 1)) x ∧ ¬ InBall E.corner 1 x) (mps fuel : Nat) :
    ∃ o, edgeSpheres E mps fuel = some o ∧ ∀ r, o = some r → EdgeResult E r :=
  edgeSphereLoop_spec hE hne mps fuel _ (edgeRunOk_empty E)

/-- **C81, any run.** Without an edge point outside the corner spheres the run may be undefined, but if it returns, the result is as described. -/
theorem C81_result (E : EdgeSetup) (hE : E.Ok) (mps fuel : Nat) (r : EdgeRun) (h : edgeSpheres E mps fuel = some (some r)) : EdgeResult E r := by
  rcases edgeSphereLoop_result hE mps fuel _ (edgeRunOk_empty E) with ⟨o, e, ho⟩ | ⟨e, -⟩
  · exact ho r (Option.some.inj (e.symm.trans h))
  · rw [show edgeSpheres E mps fuel = none from e] at h; simp at h

/-! ## Preconditions -/

theorem closestQuery_empty {P : PointStore ℝ} {ln : Links} (h : P.num = 0) (elig : Nat → Bool) (x : Nat → ℝ) (b : WithTop ℝ) :
    closestQuery Rounding.exact P ln elig x false b = none := by
  unfold closestQuery
  cases ln.origin with
  | none => rfl
  | some o => simp only [Bool.false_eq_true, if_false]; rw [h]; rfl

/-- **C81, precondition.** Without corner spheres (sharp edges that form closed loops, as on a cylinder) the first dart queries an empty tree. -/
theorem C81_no_corner_undefined (E : EdgeSetup) (hv : E.S.Valid 2) (hf : 0 < E.S.numFaces) (hU : ∀ k, 0 ≤ E.U k ∧ E.U k < 1) (hc : E.corner.store.num = 0)
    (mps fuel : Nat) : edgeSpheres E (mps + 1) (fuel + 1) = none := by
  obtain ⟨pool, ep, dp, qp⟩ := initialEdges_spec (distance 3) E.S hv E.S.numFaces le_rfl
  have hpne : pool ≠ [] := by
    rintro rfl
    obtain ⟨e, he, -⟩ := qp 0 hf _ ⟨1, 0, by norm_num, le_rfl, by norm_num, fun d => rfl⟩
    simp at he
  obtain ⟨x, f, e, -, -⟩ := C69_dart_on_its_edge E.S 0 pool hpne dp (poolTable pool) (E.U 0) (E.U (0 + 1)) (hU _).1 (hU _).2
  have hcov : dartCovered E ⟨SmartTree.empty (fun _ _ => 0) id id, [], none, 0⟩ x = some false := by
    unfold dartCovered pointCovered
    rw [if_pos hc]
    exact if_pos rfl
  have hcc : cornerClearance E x = none := by
    unfold cornerClearance; rw [closestQuery_empty hc]
  have hrad : ∀ r, edgeRadius E r x = none := fun r => by
    unfold edgeRadius
    rw [hcc]
    split
    · simp_all
    · rfl
  rw [edgeSpheres, edgeSphereLoop]
  simp only [ep]
  rw [edgeMps]
  have : edgeDart E 0 pool ⟨SmartTree.empty (fun _ _ => 0) id id, [], none, 0⟩ = none := by
    unfold edgeDart
    simp only [e, hcov]
    unfold storeEdgeSphere
    rw [hrad]
  rw [this]

/-- An edge inside one sphere of the tree scaled by `k`. -/
def EdgeIn (t : STree) (k : ℝ) (A B : Nat → ℝ) : Prop :=
  ∃ s, s < t.store.num ∧ ∀ X, (X = A ∨ X = B) → euclid 3 X (t.store.pts s) < k * t.store.pts s 3

theorem EdgeIn.point {t : STree} {k : ℝ} {A B x : Nat → ℝ} (h : EdgeIn t k A B) (hx : InSegment A B x) :
    ∃ s, s < t.store.num ∧ euclid 3 x (t.store.pts s) < k * t.store.pts s 3 := by
  obtain ⟨s, hs, hd⟩ := h
  obtain ⟨u, v, hu, hv, h1, ex⟩ := hx
  refine ⟨s, hs, ?_⟩
  rw [show x = fun d => u * A d + v * B d from funext ex]
  exact euclid_convex2 3 A B _ hu hv h1 (hd A (.inl rfl)) (hd B (.inr rfl))

/-- Every edge is inside one sphere. -/
structure AllIn (E : EdgeSetup) (r : EdgeRun) : Prop where
  lipc : LipschitzRadii E.corner.store E.L
  lipe : LipschitzRadii r.tree.spheres E.L
  all : ∀ f, f < E.S.numFaces → EdgeIn E.corner 1 (E.S.point (E.S.corner f 0)) (E.S.point (E.S.corner f 1)) ∨
    EdgeIn r.tree.asSTree (Real.sqrt (1 - E.ratio ^ 2)) (E.S.point (E.S.corner f 0)) (E.S.point (E.S.corner f 1))

theorem AllIn.dart {E : EdgeSetup} (hE : E.Ok) {r : EdgeRun} (hr : EdgeRunOk E r) (h : AllIn E r) {f : Nat} (hf : f < E.S.numFaces) {x : Nat → ℝ}
    (hx : InSegment (E.S.point (E.S.corner f 0)) (E.S.point (E.S.corner f 1)) x) : dartCovered E r x = some true := by
  obtain ⟨b, e, -, hb⟩ := C24_point_covered E.corner.store E.corner.links hE.corner E.L 0 hE.L0 hE.L1 le_rfl one_pos x
  unfold dartCovered
  rw [e]
  cases b with
  | true => rfl
  | false =>
    rcases h.all f hf with h' | h'
    · have := hb h.lipc (by simpa using h'.point hx)
      simp at this
    · obtain ⟨s, hs, hd⟩ := h'.point hx
      have ht : SphereTree r.tree.spheres r.tree.links := hr.wf.resolve_left fun h0 => by rw [h0] at hs; omega
      obtain ⟨b, e, -, hb⟩ := C24_point_covered r.tree.spheres r.tree.links ht E.L E.ratio hE.L0 hE.L1 hE.ratio0 hE.ratio1 x
      simp only [e, hb h.lipe ⟨s, hs, hd⟩]

theorem AllIn.edge {E : EdgeSetup} (hE : E.Ok) {r : EdgeRun} (hr : EdgeRunOk E r) (h : AllIn E r) {f : Nat} (hf : f < E.S.numFaces) :
    coveredEdge r.tree.asSTree E.corner E.L E.ratio (E.S.point (E.S.corner f 0)) (E.S.point (E.S.corner f 1)) = some true := by
  obtain ⟨b, e, -, hb⟩ := C25_edge_covered E.corner.store E.corner.links hE.corner E.L 0 hE.L0 hE.L1 le_rfl one_pos (E.S.point (E.S.corner f 0)) (E.S.point (E.S.corner f 1))
  unfold coveredEdge
  rw [e]
  cases b with
  | true => rfl
  | false =>
    rcases h.all f hf with h' | h'
    · have := hb h.lipc (by simpa [EdgeIn] using h')
      simp at this
    · have ht : SphereTree r.tree.spheres r.tree.links := hr.wf.resolve_left fun h0 => by obtain ⟨s, hs, -⟩ := h'; rw [h0] at hs; omega
      obtain ⟨b, e, -, hb⟩ := C25_edge_covered r.tree.spheres r.tree.links ht E.L E.ratio hE.L0 hE.L1 hE.ratio0 hE.ratio1 (E.S.point (E.S.corner f 0)) (E.S.point (E.S.corner f 1))
      rw [hb h.lipe h'] at e
      exact e

theorem AllIn.refine {E : EdgeSetup} (hE : E.Ok) {r : EdgeRun} (hr : EdgeRunOk E r) (h : AllIn E r) (pool : List (PoolEntry ℝ)) (hd : DecodesE E.S 0 pool) :
    refineSeq (uncoveredEdges midpoint3 (distance 3) (coveredEdge r.tree.asSTree E.corner E.L E.ratio) E.S 0) pool = some [] := by
  induction pool with
  | nil => rfl
  | cons p pool ih =>
    obtain ⟨k, hk⟩ := hd p (by simp)
    have hp := decodesE_parent hk
    have hk0 : k.c0 = E.S.point (E.S.corner p.parent 0) ∧ k.c1 = E.S.point (E.S.corner p.parent 1) := by
      have hat : ∀ i, i < 2 → E.S.at p.parent i = some (E.S.point (E.S.corner p.parent i)) := fun i hi => by
        unfold PoolSurface.at; rw [if_pos ⟨hp, hE.valid _ hp i hi⟩]
      unfold edgeCorners at hk
      rw [hat 0 (by omega), hat 1 (by omega)] at hk
      have := Option.some.inj (show some _ = some k from hk)
      rw [← this]
      exact ⟨rfl, rfl⟩
    have hu : uncoveredEdges midpoint3 (distance 3) (coveredEdge r.tree.asSTree E.corner E.L E.ratio) E.S 0 p = some [] := by
      unfold uncoveredEdges
      simp only [hk]
      rw [hk0.1, hk0.2, h.edge hE hr hp]
    rw [refineSeq, hu, ih fun e he => hd e (by simp [he])]
    rfl

/-- With every edge inside one sphere the loop ends after the hundredth miss. -/
theorem edgeMps_covered {E : EdgeSetup} (hE : E.Ok) {pool : List (PoolEntry ℝ)} (hpne : pool ≠ []) (hd : DecodesE E.S 0 pool) (n : Nat) :
    ∀ (k misses : Nat) (r : EdgeRun), EdgeRunOk E r → AllIn E r → misses + (n + 1) = 100 →
      edgeMps E (n + 1 + k) 0 pool misses r = some (some { r with pos := r.pos + 2 * (n + 1) }) := by
  induction n with
  | zero =>
    intro k misses r hr h hm
    rw [show 0 + 1 + k = k + 1 by omega, edgeMps]
    obtain ⟨x, f, e, ⟨p, hp, rfl⟩, hx⟩ := C69_dart_on_its_edge E.S 0 pool hpne hd (poolTable pool) (E.U r.pos) (E.U (r.pos + 1)) (hE.U _).1 (hE.U _).2
    obtain ⟨c, hc⟩ := hd p hp
    have hdart : edgeDart E 0 pool r = some ({ r with pos := r.pos + 2 }, false) := by
      unfold edgeDart
      simp only [e, h.dart hE hr (decodesE_parent hc) hx]
    rw [hdart]
    simp only [Bool.false_eq_true, if_false]
    rw [if_pos (by omega), h.refine hE hr pool hd]
    rfl
  | succ n ih =>
    intro k misses r hr h hm
    rw [show n + 1 + 1 + k = (n + 1 + k) + 1 by omega, edgeMps]
    obtain ⟨x, f, e, ⟨p, hp, rfl⟩, hx⟩ := C69_dart_on_its_edge E.S 0 pool hpne hd (poolTable pool) (E.U r.pos) (E.U (r.pos + 1)) (hE.U _).1 (hE.U _).2
    obtain ⟨c, hc⟩ := hd p hp
    have hdart : edgeDart E 0 pool r = some ({ r with pos := r.pos + 2 }, false) := by
      unfold edgeDart
      simp only [e, h.dart hE hr (decodesE_parent hc) hx]
    rw [hdart]
    simp only [Bool.false_eq_true, if_false]
    rw [if_neg (by omega), ih k (misses + 1) _ (hr.at_pos (r.pos + 2)) ⟨h.lipc, h.lipe, h.all⟩ (by omega)]
    simp only [Option.some.injEq, EdgeRun.mk.injEq, true_and]
    omega

/-- **C81, precondition.** If every sharp edge lies inside one corner sphere no dart is accepted, and the Lipschitz pass reads the empty tree. -/
theorem C81_no_sphere_undefined (E : EdgeSetup) (hE : E.Ok) (hlip : LipschitzRadii E.corner.store E.L)
    (hall : ∀ f, f < E.S.numFaces → ∃ s, s < E.corner.store.num ∧ ∀ i, i < 2 → euclid 3 (E.S.point (E.S.corner f i)) (E.corner.store.pts s) < E.corner.store.pts s 3)
    (mps fuel : Nat) (hm : 100 ≤ mps) : edgeSpheres E mps (fuel + 1) = none := by
  obtain ⟨pool, ep, dp, qp⟩ := initialEdges_spec (distance 3) E.S hE.valid E.S.numFaces le_rfl
  have hpne : pool ≠ [] := by
    rintro rfl
    obtain ⟨e, he, -⟩ := qp 0 hE.some_edge _ ⟨1, 0, by norm_num, le_rfl, by norm_num, fun d => rfl⟩
    simp at he
  have hin : AllIn E ⟨SmartTree.empty (fun _ _ => 0) id id, [], none, 0⟩ := by
    refine ⟨hlip, fun i j hi => absurd hi (by show ¬ i < 0; omega), fun f hf => .inl ?_⟩
    obtain ⟨s, hs, hd⟩ := hall f hf
    refine ⟨s, hs, ?_⟩
    rintro X (rfl | rfl)
    · rw [one_mul]; exact hd 0 (by omega)
    · rw [one_mul]; exact hd 1 (by omega)
  have := edgeMps_covered hE hpne dp 99 (mps - 100) 0 _ (edgeRunOk_empty E) hin (by omega)
  rw [show 99 + 1 + (mps - 100) = mps by omega] at this
  rw [edgeSpheres, edgeSphereLoop]
  simp only [ep, this]
  rw [C27_empty_undefined E.L _ _ rfl]

/-! ## A run that returns -/

theorem le_boundRadius {sz : WithTop ℝ} {v rmax rmin : ℝ} (hm : v ≤ rmax) : (v : WithTop ℝ) ≤ sz → v ≤ boundRadius sz ⊤ rmax rmin := by
  obtain ⟨r, hr⟩ : ∃ r : ℝ, r = (match sz with | none => rmax | some r => if r > rmax then rmax else r) := ⟨_, rfl⟩
  have hc : boundRadius sz ⊤ rmax rmin = capAt (if r < rmin then rmin else r) ⊤ := by rw [hr]; rfl
  intro h
  have h1 : v ≤ r := by
    cases sz with
    | top => rw [hr]; exact hm
    | coe a =>
      have h : v ≤ a := WithTop.coe_le_coe.1 h
      rw [hr]
      show v ≤ if a > rmax then rmax else a
      split <;> assumption
  rw [hc]
  refine le_capAt ?_ (by simp)
  split
  · linarith
  · exact h1

/-- With no sphere yet the radius is the smallest of the clearances. -/
theorem le_edgeRadius {E : EdgeSetup} (hE : E.Ok) {r : EdgeRun} (hr : r.tree.num ≤ 1) {x : Nat → ℝ} {v ρ : ℝ} (e : edgeRadius E r x = some ρ) (hs : E.q.size x = some ⊤)
    (h1 : ∀ s, E.q.surf x = some s → (v : WithTop ℝ) ≤ scaleSz s) (h2 : ∀ s, E.q.edge x = some s → (v : WithTop ℝ) ≤ scaleSz s)
    (h3 : ∀ k, k < E.corner.store.num → v ≤ 0.4 * euclid 3 x (E.corner.store.pts k)) (hm : v ≤ E.rmax) : v ≤ ρ := by
  obtain ⟨s, es, -⟩ := hE.surf x
  obtain ⟨d, ed, -⟩ := hE.edge x
  obtain ⟨c, ec, -, -, hc⟩ := cornerClearance_spec hE x
  have en : nearDart E r x = some [] := by unfold nearDart; rw [if_neg (by omega)]
  unfold edgeRadius at e
  rw [es, ed, ec, en, hs] at e
  rw [← Option.some.inj e]
  refine le_boundRadius hm (le_min (h1 s es) (le_min (h2 d ed) (le_scaleSz fun a ha => ?_)))
  rcases hc with h | ⟨k, hk, h⟩
  · rw [h] at ha; exact absurd ha (by simp)
  · rw [h] at ha
    rw [← WithTop.coe_injective ha]
    exact h3 k hk

/-- One edge of length one, a corner sphere far away, the surface turning at distance 25, `R_MIN` 20. -/
noncomputable def oneEdge (corner : STree) : EdgeSetup where
  S := ⟨2, fun i => if i = 0 then mkSphere 0 0 0 0 else mkSphere 1 0 0 0, 1, fun _ i => i⟩
  corner := corner
  q := ⟨fun _ => some ((25 : ℝ) : WithTop ℝ), fun _ => some ⊤, fun _ => some ⊤⟩
  tol := 20
  th := 1 / 2
  rmax := 100
  rmin := 0
  L := 1 / 2
  ratio := 1 / 2
  rb := fun _ _ => false
  U := fun _ => 1 / 2

theorem oneEdge_far {x : Nat → ℝ} (hx : InSegment (mkSphere 0 0 0 0) (mkSphere 1 0 0 0) x) : 99 ≤ euclid 3 x (mkSphere 100 0 0 1) := by
  obtain ⟨u, v, hu, hv, h1, ex⟩ := hx
  have h0 : x 0 = v := by rw [ex]; simp [mkSphere]
  have : (99 : ℝ) ^ 2 ≤ euclid 3 x (mkSphere 100 0 0 1) ^ 2 := by
    rw [euclid_sq]
    simp only [Finset.sum_range_succ, Finset.sum_range_zero, zero_add]
    have : mkSphere 100 0 0 1 0 = 100 := by simp [mkSphere]
    rw [h0, this]
    nlinarith [sq_nonneg (x 1 - mkSphere 100 0 0 1 1), sq_nonneg (x 2 - mkSphere 100 0 0 1 2)]
  nlinarith [euclid_nonneg 3 x (mkSphere 100 0 0 1)]

theorem oneEdge_near {x y : Nat → ℝ} (hx : InSegment (mkSphere 0 0 0 0) (mkSphere 1 0 0 0) x) (hy : InSegment (mkSphere 0 0 0 0) (mkSphere 1 0 0 0) y) : euclid 3 x y ≤ 1 := by
  obtain ⟨u, v, hu, hv, h1, ex⟩ := hx
  obtain ⟨u', v', hu', hv', h1', ey⟩ := hy
  have : euclid 3 x y ^ 2 = (v - v') ^ 2 := by
    rw [euclid_sq]
    simp only [Finset.sum_range_succ, Finset.sum_range_zero, zero_add, ex, ey]
    simp [mkSphere]
  nlinarith [euclid_nonneg 3 x y]

/-- The hypotheses of C81 hold for it and `generate_edge_spheres` returns. -/
theorem oneEdge_returns : ∃ E : EdgeSetup, E.Ok ∧
    (∃ f, f < E.S.numFaces ∧ ∃ x, InSegment (E.S.point (E.S.corner f 0)) (E.S.point (E.S.corner f 1)) x ∧ ¬ InBall E.corner 1 x) ∧
    (∃ r, edgeSpheres E 101 1 = some (some r) ∧ r.tree.num = 1 ∧ r.tree.pts 0 3 = 10 ∧ E.tol = 20 ∧ E.rmax = 100) ∧
    E = oneEdge E.corner ∧ ∀ s, s < E.corner.store.num → E.corner.store.pts s = mkSphere 100 0 0 1 := by
  obtain ⟨C, ln, hC, hn, hp⟩ := SphereTree.exists [mkSphere 100 0 0 1] (by simp) (by simp [mkSphere])
  have hn : C.num = 1 := hn
  have hp0 : C.pts 0 = mkSphere 100 0 0 1 := hp 0 (by simp)
  have hE : (oneEdge ⟨C, ln⟩).Ok := by
    refine ⟨fun f hf i hi => hi, Nat.one_pos, hC, ?_, ?_, ?_, ?_, ?_, ?_, fun k => ⟨?_, ?_⟩, fun x => ⟨_, rfl, WithTop.coe_le_coe.2 ?_⟩, fun x => ⟨⊤, rfl, le_top⟩, fun x => ⟨⊤, rfl, le_top⟩⟩ <;>
      norm_num [oneEdge]
  have hP0 : (oneEdge ⟨C, ln⟩).S.point ((oneEdge ⟨C, ln⟩).S.corner 0 0) = mkSphere 0 0 0 0 := by simp [oneEdge]
  have hP1 : (oneEdge ⟨C, ln⟩).S.point ((oneEdge ⟨C, ln⟩).S.corner 0 1) = mkSphere 1 0 0 0 := by simp [oneEdge]
  have hlipC : LipschitzRadii C (1 / 2) := by
    intro i j hi hj
    obtain rfl : i = 0 := by omega
    obtain rfl : j = 0 := by omega
    rw [euclid_self]; linarith
  set E := oneEdge ⟨C, ln⟩ with hEdef
  have hx0 : InSegment (mkSphere 0 0 0 0) (mkSphere 1 0 0 0) (mkSphere 0 0 0 0) := ⟨1, 0, by norm_num, le_rfl, by norm_num, fun d => by ring⟩
  have hx1 : InSegment (mkSphere 0 0 0 0) (mkSphere 1 0 0 0) (mkSphere 1 0 0 0) := ⟨0, 1, le_rfl, by norm_num, by norm_num, fun d => by ring⟩
  have hcorner : ∀ s, s < E.corner.store.num → E.corner.store.pts s = mkSphere 100 0 0 1 := fun s hs => by
    have hs : s < C.num := hs
    obtain rfl : s = 0 := by omega
    exact hp0
  refine ⟨E, hE, ⟨0, Nat.one_pos, mkSphere 0 0 0 0, by rw [hP0, hP1]; exact hx0, ?_⟩, ?_, rfl, hcorner⟩
  · rintro ⟨s, hs, hd⟩
    rw [hcorner s hs] at hd
    have := oneEdge_far hx0
    have h3 : mkSphere 100 0 0 1 3 = 1 := by simp [mkSphere]
    rw [h3] at hd
    norm_num at hd
    linarith
  obtain ⟨pool, ep, dp, qp⟩ := initialEdges_spec (distance 3) E.S hE.valid E.S.numFaces le_rfl
  have hpne : pool ≠ [] := by
    rintro rfl
    obtain ⟨e, he, -⟩ := qp 0 hE.some_edge _ ⟨1, 0, by norm_num, le_rfl, by norm_num, fun d => rfl⟩
    simp at he
  set r0 : EdgeRun := ⟨SmartTree.empty (fun _ _ => 0) id id, [], none, 0⟩ with hr0
  have hok0 : EdgeRunOk E r0 := edgeRunOk_empty E
  obtain ⟨x, f, e, ⟨p, hpm, hpf⟩, hx⟩ := C69_dart_on_its_edge E.S 0 pool hpne dp (poolTable pool) (E.U r0.pos) (E.U (r0.pos + 1)) (hE.U _).1 (hE.U _).2
  obtain ⟨c, hc⟩ := dp p hpm
  have hf : f < E.S.numFaces := hpf ▸ decodesE_parent hc
  obtain rfl : f = 0 := by have : f < 1 := hf; omega
  have hxs : InSegment (mkSphere 0 0 0 0) (mkSphere 1 0 0 0) x := by rw [hP0, hP1] at hx; exact hx
  have hcov : dartCovered E r0 x = some false := by
    obtain ⟨b, eb, hb, -⟩ := C24_point_covered E.corner.store E.corner.links hE.corner E.L 0 hE.L0 hE.L1 le_rfl one_pos x
    have hbf : b = false := by
      by_contra h
      obtain ⟨s, hs, hd⟩ := hb (by simpa using h)
      rw [hcorner s hs] at hd
      have := oneEdge_far hxs
      have h3 : mkSphere 100 0 0 1 3 = 1 := by simp [mkSphere]
      rw [h3] at hd
      norm_num at hd
      linarith
    unfold dartCovered
    rw [eb, hbf]
    simp only
    unfold pointCovered
    exact if_pos rfl
  obtain ⟨ρ, eρ, hρ0, hρ⟩ := edgeRadius_spec hE (hok0.at_pos 2) x
  have hρ10 : 10 ≤ ρ := by
    refine le_edgeRadius hE (by show 0 ≤ 1; omega) eρ rfl (fun s hs => ?_) (fun s hs => ?_) (fun k hk => ?_) (by norm_num [hEdef, oneEdge])
    · obtain rfl := Option.some.inj (show some ((25 : ℝ) : WithTop ℝ) = some s from hs)
      exact le_scaleSz fun a ha => by rw [← WithTop.coe_injective ha]; norm_num
    · obtain rfl := Option.some.inj (show some (⊤ : WithTop ℝ) = some s from hs)
      exact le_top
    · rw [hcorner k hk]
      linarith [oneEdge_far hxs]
  have hρ10' : ρ ≤ 10 := by
    have := hρ.surf 25 rfl
    rw [show E.rmin = 0 from rfl] at this
    norm_num at this
    exact this
  obtain ⟨t, et, ht, hcap, hnum, hold, hnew⟩ := SmartTree.add_sphere (hok0.at_pos 2).wf (hok0.at_pos 2).cap E.rb (upd x 3 ρ) (by simpa [upd] using hρ0)
  have hnum : t.num = 1 := hnum
  have hnew : t.pts 0 = upd x 3 ρ := hnew
  set r1 : EdgeRun := ⟨t, [0], some ρ, 2⟩ with hr1
  have hdart : edgeDart E 0 pool r0 = some (r1, true) := by
    unfold edgeDart
    simp only [e, hcov]
    unfold storeEdgeSphere
    rw [eρ]
    simp only [et]
    rfl
  have hok1 : EdgeRunOk E r1 := by
    refine ⟨.inr ht, .inr hcap, hnum.symm, fun _ => ⟨ρ, rfl, hρ0⟩, fun i g hg => ?_⟩
    have hi : i = 0 := by
      have := (List.getElem?_eq_some_iff.1 hg).1
      simp [hr1] at this; omega
    subst hi
    have hg : g = 0 := by simpa [hr1] using hg.symm
    subst hg
    refine ⟨hf, x, hx, fun d hd => ?_, ?_⟩
    · show t.pts 0 d = x d
      rw [hnew]; simp [upd, show d ≠ 3 by omega]
    · show EdgeSize E x (t.pts 0 3)
      rw [hnew]; simpa [upd] using hρ
  have hlip1 : LipschitzRadii t.spheres (1 / 2) := by
    intro i j hi hj
    have hi : i < t.num := hi
    have hj : j < t.num := hj
    obtain rfl : i = 0 := by omega
    obtain rfl : j = 0 := by omega
    rw [euclid_self]; linarith
  have hin : AllIn E r1 := by
    refine ⟨hlipC, hlip1, fun g hg => .inr ⟨0, by show 0 < t.num; omega, fun X hX => ?_⟩⟩
    obtain rfl : g = 0 := by have : g < 1 := hg; omega
    rw [hP0, hP1] at hX
    have hXs : InSegment (mkSphere 0 0 0 0) (mkSphere 1 0 0 0) X := by rcases hX with rfl | rfl <;> assumption
    show euclid 3 X (t.pts 0) < Real.sqrt (1 - (1 / 2) ^ 2) * t.pts 0 3
    have h3 : t.pts 0 3 = ρ := by rw [hnew]; simp [upd]
    have hd : euclid 3 X (t.pts 0) = euclid 3 X x := euclid_congr (fun _ _ => rfl) fun d hd => by rw [hnew]; simp [upd, show d ≠ 3 by omega]
    rw [h3, hd]
    have h1 := oneEdge_near hXs hxs
    have h2 : (1 / 2 : ℝ) ≤ Real.sqrt (1 - (1 / 2) ^ 2) := Real.le_sqrt_of_sq_le (by norm_num)
    nlinarith
  have hmps : edgeMps E 101 0 pool 0 r0 = some (some { r1 with pos := r1.pos + 2 * (99 + 1) }) := by
    rw [edgeMps, hdart]
    simp only [if_true]
    rw [if_neg (by omega)]
    exact edgeMps_covered hE hpne dp 99 0 0 r1 hok1 hin (by omega)
  obtain ⟨Q, eQ, hQ⟩ := C27_isolated_unchanged E.L hE.L0 t.spheres t.links ht t.num le_rfl (fun i j hi hj hij => by
    have hi : i < t.num := hi
    have hj : j < t.num := hj
    omega)
  obtain ⟨P, sh, eP, hs, hP, -⟩ := C27_lipschitz_tree_partial E.L hE.L0 t.spheres t.links ht t.num le_rfl false
  obtain ⟨rfl, rfl⟩ : P = Q ∧ sh = false := by rw [eP] at eQ; simpa using eQ
  have hids : ∀ (j : Nat) (g : Nat), r1.ids[j]? = some g → g < E.S.numFaces := fun j g hj => (hok1.on j g hj).1
  have hPn : P.num = 1 := hs.num.trans hnum
  have hnarrow : narrowPass E t.links r1.ids P 1 = some (P, false) := by
    have hr : 0 ≤ radius P 0 := by rw [hP.radius]; exact hP.nonneg 0 (by omega)
    obtain ⟨l, el, -, hl, -⟩ := C28_overlapping_spheres P t.links hP E.L hE.L0 hE.L1 (P.pts 0) (radius P 0) hr
    have hnn : ∀ (l : List Nat), (∀ j ∈ l, j = 0) → ∀ s, narrowNear E r1.ids (P.pts 0) 0 l s = some s := by
      intro l
      induction l with
      | nil => intro _ s; rfl
      | cons a l ih =>
        intro hl s
        have ha : a = 0 := hl a (by simp)
        subst ha
        rw [narrowNear]
        simp only [show r1.ids[0]? = some 0 from rfl, if_true]
        exact ih (fun j hj => hl j (by simp [hj])) s
    rw [narrowPass, narrowPass]
    simp only [show r1.ids[0]? = some 0 from rfl, el]
    rw [hnn l fun j hj => by have := (hl j hj).1; omega]
    simp only
    rw [setAttr_same]
  refine ⟨{ r1 with tree := { t with pts := P.pts }, pos := r1.pos + 2 * (99 + 1) }, ?_, hnum, ?_, rfl, rfl⟩
  swap
  · show P.pts 0 3 = 10
    rw [hQ 0 (by show 0 < t.num; omega)]
    show t.pts 0 3 = 10
    rw [hnew]
    simp only [upd, if_true]
    linarith
  rw [edgeSpheres, edgeSphereLoop]
  simp only [ep]
  rw [hmps]
  simp only [hr1]
  rw [eP]
  simp only
  rw [hnum, hnarrow]

/-- **C81, `R_MIN` is no minimum.** The input option `R_MIN`, printed as `Minimum Sphere Radius`, reaches this function only as the tolerance of the queries: a run with
`R_MIN = 20` and `R_MAX = 100` returns a sphere of radius 10. -/
theorem C81_minimum_radius_false : ¬ ∀ (E : EdgeSetup) (mps fuel : Nat) (r : EdgeRun), E.Ok → E.tol ≤ E.rmax → edgeSpheres E mps fuel = some (some r) →
    ∀ i, i < r.tree.num → E.tol ≤ r.tree.pts i 3 := by
  intro h
  obtain ⟨E, hE, -, ⟨r, e, hn, hr, ht, hm⟩, -⟩ := oneEdge_returns
  have := h E 101 1 r hE (by rw [ht, hm]; norm_num) e 0 (by omega)
  rw [hr, ht] at this
  norm_num at this

-- the preconditions: an edge without a corner sphere, and an edge inside a corner sphere
example : edgeSpheres (oneEdge ⟨{ pts := fun _ _ => 0, num := 0, dim := 3, lt := realLt }, { left := id, right := id, origin := none, height := 0 }⟩) 1 1 = none :=
  C81_no_corner_undefined _ (fun f hf i hi => hi) Nat.one_pos (fun k => by norm_num [oneEdge]) rfl 0 0

example : ∃ C : STree, edgeSpheres (oneEdge C) 100 1 = none := by
  obtain ⟨C, ln, hC, hn, hp⟩ := SphereTree.exists [mkSphere 0 0 0 10] (by simp) (by simp [mkSphere])
  have hn : C.num = 1 := hn
  have hp0 : C.pts 0 = mkSphere 0 0 0 10 := hp 0 (by simp)
  refine ⟨⟨C, ln⟩, C81_no_sphere_undefined (oneEdge ⟨C, ln⟩) ?_ ?_ ?_ 100 0 le_rfl⟩
  · refine ⟨fun f hf i hi => hi, Nat.one_pos, hC, ?_, ?_, ?_, ?_, ?_, ?_, fun k => ⟨?_, ?_⟩, fun x => ⟨_, rfl, WithTop.coe_le_coe.2 ?_⟩, fun x => ⟨⊤, rfl, le_top⟩, fun x => ⟨⊤, rfl, le_top⟩⟩ <;>
      norm_num [oneEdge]
  · intro i j hi hj
    have hi : i < C.num := hi
    have hj : j < C.num := hj
    obtain rfl : i = 0 := by omega
    obtain rfl : j = 0 := by omega
    rw [euclid_self]; linarith
  · intro f hf
    refine ⟨0, by show 0 < C.num; omega, fun i hi => ?_⟩
    show euclid 3 (if i = 0 then mkSphere 0 0 0 0 else mkSphere 1 0 0 0) (C.pts 0) < C.pts 0 3
    rw [hp0, show mkSphere 0 0 0 10 3 = 10 by simp [mkSphere]]
    split
    · rw [euclid_mk (w := 0) (by norm_num) (by norm_num)]; norm_num
    · rw [euclid_mk (w := 1) (by norm_num) (by norm_num)]; norm_num

end VoroCrust
