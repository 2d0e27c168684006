import Verif.Props.EdgeSpheres
import Verif.Props.Clouds
import Verif.Props.FrontStops
import Mathlib.Analysis.SpecialFunctions.Log.Basic

/-! C112: how many spheres the sampling of the sharp edges makes, and how many rounds. -/

namespace VoroCrust

/-- A point that does not count as covered keeps its distance from all centres. -/
theorem pointCovered_far {P : PointStore ℝ} {ln : Links} (h : SphereTree P ln) {L α : ℝ} (hL0 : 0 ≤ L) (hL1 : L < 1) (hα0 : 0 ≤ α) (hα1 : α < 1) {x : Nat → ℝ}
    (hx : pointCovered P ln L α x = some false) : ∃ c, c < P.num ∧ coverBeta α * P.pts c 3 ≤ euclid 3 x (P.pts c) ∧ ∀ s, s < P.num → euclid 3 x (P.pts c) ≤ euclid 3 x (P.pts s) := by
  obtain ⟨c, b, e, h1⟩ := C06_closest_is_exhaustive P ln h.tree (fun _ => true) x false ⊤ le_top
  have hn := h.tree.num_pos
  rcases h1 with ⟨hc, -, hb, -, hall⟩ | ⟨-, hb, hall⟩
  swap
  · have := hall 0 hn rfl
    simp at this
  rw [h.dim] at hb hall
  have ec : closestSphere P ln x = some (c, euclid 3 x (P.pts c)) := by
    unfold closestSphere
    rw [e, hb]
    show (if c < P.num then some (c, euclid 3 x (P.pts c)) else none) = _
    rw [if_pos hc]
  have hr0 := h.nonneg c hc
  have hd0 := euclid_nonneg 3 x (P.pts c)
  have h1L : 0 < 1 - L := by linarith
  obtain ⟨-, -, b1, b0⟩ := coverBeta_bounds hα0 hα1
  refine ⟨c, hc, ?_, fun s hs => hall s hs rfl⟩
  obtain ⟨l, el, -, -, hl⟩ := spheresNear_spec h x (R := (P.pts c 3 + L * euclid 3 x (P.pts c)) / (1 - L)) (div_nonneg (add_nonneg hr0 (mul_nonneg hL0 hd0)) h1L.le)
  by_cases hin : euclid 3 x (P.pts c) < (P.pts c 3 + L * euclid 3 x (P.pts c)) / (1 - L)
  · have hm := hl c hc hin
    unfold pointCovered at hx
    rw [if_neg (by omega), ec] at hx
    simp only [h.radius, el] at hx
    have hf := Option.some.inj hx
    rw [List.any_eq_false] at hf
    have := hf c hm
    simp only [decide_eq_true_eq, inCover, distance_eq, not_lt, h.radius] at this
    nlinarith
  · rw [not_lt, div_le_iff₀ h1L] at hin
    nlinarith

/-! ## The least radius -/

/-- `m` is a positive lower bound of everything that limits a radius: the largest radius, the corner spheres, and at points of the sharp edges that are not close to a corner the clearances, the prescribed
sizes and what other sharp edges allow in narrow regions. -/
structure EdgeFloor (E : EdgeSetup) (m : ℝ) : Prop where
  pos : 0 < m
  rmax : m ≤ E.rmax
  corner : ∀ k, k < E.corner.store.num → m ≤ 0.4 * E.corner.store.pts k 3
  clear : ∀ f, f < E.S.numFaces → ∀ x, InSegment (E.S.point (E.S.corner f 0)) (E.S.point (E.S.corner f 1)) x → (∀ k, k < E.corner.store.num → m ≤ 0.4 * euclid 3 x (E.corner.store.pts k)) →
    (∀ s, E.q.surf x = some s → (m : WithTop ℝ) ≤ scaleSz s) ∧ (∀ s, E.q.edge x = some s → (m : WithTop ℝ) ≤ scaleSz s) ∧ ∀ s, E.q.size x = some s → (m : WithTop ℝ) ≤ s
  narrow : ∀ f, f < E.S.numFaces → ∀ x, InSegment (E.S.point (E.S.corner f 0)) (E.S.point (E.S.corner f 1)) x → (∀ k, k < E.corner.store.num → m ≤ 0.4 * euclid 3 x (E.corner.store.pts k)) →
    ∀ g, g < E.S.numFaces → f ≠ g → ∀ l, narrowLimit E.th E.tol E.rmin (toV3 x) (toV3 (E.S.point (E.S.corner g 0))) (toV3 (E.S.point (E.S.corner g 1))) = some l → m ≤ l

/-- Radii at least `m`, centres at least `coverBeta * m` apart and away from the corners. -/
structure EdgeSpaced (E : EdgeSetup) (m : ℝ) (r : EdgeRun) : Prop where
  least : ∀ i, i < r.tree.num → m ≤ r.tree.pts i 3
  apart : ∀ i j, i < j → j < r.tree.num → coverBeta E.ratio * m ≤ euclid 3 (r.tree.pts i) (r.tree.pts j)
  far : ∀ i, i < r.tree.num → ∀ k, k < E.corner.store.num → m ≤ 0.4 * euclid 3 (r.tree.pts i) (E.corner.store.pts k)

theorem boundRadius_floor {sz size : WithTop ℝ} {v rmax rmin : ℝ} (hm : v ≤ rmax) (h : (v : WithTop ℝ) ≤ sz) (hz : (v : WithTop ℝ) ≤ size) : v ≤ boundRadius sz size rmax rmin := by
  have hc : boundRadius sz size rmax rmin = capAt (boundRadius sz ⊤ rmax rmin) size := rfl
  rw [hc]
  refine le_capAt (le_boundRadius hm h) fun b hb => ?_
  rw [hb] at hz
  exact WithTop.coe_le_coe.1 hz

theorem limitNear_floor {P : PointStore ℝ} {L β v : ℝ} (x : Nat → ℝ) (l : List Nat) (hl : ∀ s ∈ l, v ≤ distance 3 x (P.pts s) / β ∧ v ≤ radius P s + L * distance 3 x (P.pts s)) (sz : WithTop ℝ)
    (h : (v : WithTop ℝ) ≤ sz) : (v : WithTop ℝ) ≤ limitNear P L β x l sz := by
  induction l generalizing sz with
  | nil => exact h
  | cons s l ih =>
    have := hl s (by simp)
    exact ih (fun t ht => hl t (by simp [ht])) _ (le_min (le_min h (WithTop.coe_le_coe.2 this.1)) (WithTop.coe_le_coe.2 this.2))

theorem sqrt_pos_of_ratio {E : EdgeSetup} (hE : E.Ok) : 0 < Real.sqrt (1 - E.ratio * E.ratio) := Real.sqrt_pos.2 (by nlinarith [hE.ratio0, hE.ratio1])

theorem coverBeta_pos {E : EdgeSetup} (hE : E.Ok) : 0 < coverBeta E.ratio := by
  have := (coverBeta_bounds hE.ratio0 hE.ratio1).1
  have h := sqrt_pos_of_ratio hE
  rw [← pow_two] at h
  linarith

/-- The dart that is not covered: its distances, and the radius of the sphere there. -/
theorem dart_floor {E : EdgeSetup} (hE : E.Ok) {m : ℝ} (hm : EdgeFloor E m) {r : EdgeRun} (hr : EdgeRunOk E r) (hs : EdgeSpaced E m r) {f : Nat} (hf : f < E.S.numFaces) {x : Nat → ℝ}
    (hx : InSegment (E.S.point (E.S.corner f 0)) (E.S.point (E.S.corner f 1)) x) (hc : dartCovered E r x = some false) :
    (∀ s, s < r.tree.num → coverBeta E.ratio * m ≤ euclid 3 x (r.tree.pts s)) ∧ (∀ k, k < E.corner.store.num → m ≤ 0.4 * euclid 3 x (E.corner.store.pts k)) ∧
      ∀ p ρ, edgeRadius E { r with pos := p } x = some ρ → m ≤ ρ := by
  have hb0 := coverBeta_pos hE
  have hs0 := sqrt_pos_of_ratio hE
  have hb1 : Real.sqrt (1 - E.ratio * E.ratio) ≤ coverBeta E.ratio := by
    rw [← pow_two]; exact (coverBeta_bounds hE.ratio0 hE.ratio1).1
  unfold dartCovered at hc
  have hcor : pointCovered E.corner.store E.corner.links E.L 0 x = some false := by
    split at hc
    · simp at hc
    · simp at hc
    · assumption
  rw [hcor] at hc
  simp only at hc
  have hcr : ∀ k, k < E.corner.store.num → m ≤ 0.4 * euclid 3 x (E.corner.store.pts k) := fun k hk => by
    obtain ⟨c, hcn, c1, c2⟩ := pointCovered_far hE.corner hE.L0 hE.L1 le_rfl one_pos hcor
    have h1 : coverBeta 0 = 1 := by unfold coverBeta; rw [if_neg (by norm_num)]
    rw [h1] at c1
    have := hm.corner c hcn
    have := c2 k hk
    linarith
  have hfar : ∀ s, s < r.tree.num → ∃ c, c < r.tree.num ∧ coverBeta E.ratio * r.tree.pts c 3 ≤ euclid 3 x (r.tree.pts s) := fun s hsn => by
    have ht : SphereTree r.tree.spheres r.tree.links := hr.wf.resolve_left (by show r.tree.num ≠ 0; omega)
    obtain ⟨c, hcn, c1, c2⟩ := pointCovered_far ht hE.L0 hE.L1 hE.ratio0 hE.ratio1 hc
    exact ⟨c, hcn, c1.trans (c2 s hsn)⟩
  have hfar' : ∀ s, s < r.tree.num → coverBeta E.ratio * m ≤ euclid 3 x (r.tree.pts s) := fun s hsn => by
    obtain ⟨c, hcn, c1⟩ := hfar s hsn
    exact (mul_le_mul_of_nonneg_left (hs.least c hcn) hb0.le).trans c1
  refine ⟨hfar', hcr, fun p ρ eρ => ?_⟩
  obtain ⟨q1, q2, q3⟩ := hm.clear f hf x hx hcr
  obtain ⟨s, es, -⟩ := hE.surf x
  obtain ⟨d, ed, -⟩ := hE.edge x
  obtain ⟨z, ez, -⟩ := hE.size x
  obtain ⟨c, ec, -, -, hcc⟩ := cornerClearance_spec hE x
  obtain ⟨l, el, hl⟩ := nearDart_spec hE (hr.at_pos p) x
  unfold edgeRadius at eρ
  rw [es, ed, ec, el, ez] at eρ
  rw [← Option.some.inj eρ]
  refine boundRadius_floor hm.rmax (le_min (q1 s es) (limitNear_floor x l (fun t ht => ?_) _ (le_min (q2 d ed) (le_scaleSz fun a ha => ?_)))) (q3 z ez)
  · have htn : t < r.tree.num := hl t ht
    have hrt : radius r.tree.spheres t = r.tree.pts t 3 := rfl
    have hd : distance 3 x (r.tree.spheres.pts t) = euclid 3 x (r.tree.pts t) := distance_eq _ _ _
    show m ≤ distance 3 x (r.tree.spheres.pts t) / _ ∧ m ≤ radius r.tree.spheres t + E.L * distance 3 x (r.tree.spheres.pts t)
    rw [hrt, hd]
    constructor
    · rw [le_div_iff₀ hs0]
      have := hfar' t htn
      nlinarith [hm.pos]
    · have := hs.least t htn
      have := mul_nonneg hE.L0 (euclid_nonneg 3 x (r.tree.pts t))
      linarith
  · rcases hcc with h | ⟨k, hk, h⟩
    · rw [h] at ha; exact absurd ha (by simp)
    · rw [h] at ha
      rw [← WithTop.coe_injective ha]
      exact hcr k hk

theorem edgeDart_floor {E : EdgeSetup} (hE : E.Ok) {m : ℝ} (hm : EdgeFloor E m) {r : EdgeRun} (hr : EdgeRunOk E r) (hs : EdgeSpaced E m r) {level : Nat} {pool : List (PoolEntry ℝ)} (hne : pool ≠ [])
    (hd : DecodesE E.S level pool) {r' : EdgeRun} {v : Bool} (h : edgeDart E level pool r = some (r', v)) :
    EdgeSpaced E m r' ∧ (v = false → r'.tree = r.tree ∧ r'.ids = r.ids) ∧ (v = true → r'.tree.num = r.tree.num + 1) ∧ ∀ i, i < r.tree.num → r'.tree.pts i = r.tree.pts i := by
  obtain ⟨x, f, e, ⟨p, hp, rfl⟩, hx⟩ := C69_dart_on_its_edge E.S level pool hne hd (poolTable pool) (E.U r.pos) (E.U (r.pos + 1)) (hE.U _).1 (hE.U _).2
  obtain ⟨k, hk⟩ := hd p hp
  obtain ⟨b, eb⟩ := dartCovered_spec hE hr x
  unfold edgeDart at h
  simp only [e, eb] at h
  cases b with
  | true =>
    obtain ⟨rfl, rfl⟩ := Prod.mk.inj (Option.some.inj h)
    exact ⟨⟨hs.least, hs.apart, hs.far⟩, fun _ => ⟨rfl, rfl⟩, by simp, fun _ _ => rfl⟩
  | false =>
    simp only at h
    obtain ⟨hfar, hcr, hρ⟩ := dart_floor hE hm hr hs (decodesE_parent hk) hx eb
    obtain ⟨ρ, eρ, h0, -⟩ := edgeRadius_spec hE (hr.at_pos (r.pos + 2)) x
    obtain ⟨t, et, ht, hcap, hnum, hold, hnew⟩ := SmartTree.add_sphere hr.wf hr.cap E.rb (upd x 3 ρ) (by simpa [upd] using h0)
    have hst : storeEdgeSphere E { r with pos := r.pos + 2 } x p.parent = some ⟨t, r.ids ++ [p.parent], some ρ, r.pos + 2⟩ := by unfold storeEdgeSphere; simp only [eρ, et]
    rw [hst] at h
    obtain ⟨rfl, rfl⟩ := Prod.mk.inj (Option.some.inj h)
    refine ⟨⟨fun i hi => ?_, fun i j hij hj => ?_, fun i hi k hk => ?_⟩, by simp, fun _ => hnum, hold⟩
    · have hi : i < t.num := hi
      show m ≤ t.pts i 3
      by_cases h' : i < r.tree.num
      · rw [hold i h']; exact hs.least i h'
      · obtain rfl : i = r.tree.num := by omega
        rw [hnew]
        simpa [upd] using hρ _ ρ eρ
    · have hj : j < t.num := hj
      show _ ≤ euclid 3 (t.pts i) (t.pts j)
      by_cases h' : j < r.tree.num
      · rw [hold i (by omega), hold j h']; exact hs.apart i j hij h'
      · obtain rfl : j = r.tree.num := by omega
        rw [hnew, hold i hij, euclid_comm]
        refine (hfar i hij).trans (le_of_eq ?_)
        exact euclid_congr (fun d hd => by simp [upd, show d ≠ 3 by omega]) (fun _ _ => rfl)
    · have hi : i < t.num := hi
      show m ≤ 0.4 * euclid 3 (t.pts i) _
      by_cases h' : i < r.tree.num
      · rw [hold i h']; exact hs.far i h' k hk
      · obtain rfl : i = r.tree.num := by omega
        rw [hnew]
        refine (hcr k hk).trans (le_of_eq ?_)
        exact congrArg _ (euclid_congr (fun d hd => by simp [upd, show d ≠ 3 by omega]) (fun _ _ => rfl))

/-- The sampling loop keeps radii and distances; without a new sphere it changes nothing but the count of random numbers. -/
theorem edgeMps_floor {E : EdgeSetup} (hE : E.Ok) {m : ℝ} (hm : EdgeFloor E m) (fuel : Nat) : ∀ (level : Nat) (pool : List (PoolEntry ℝ)) (misses : Nat) (r r' : EdgeRun),
    EdgeRunOk E r → EdgeSpaced E m r → pool ≠ [] → DecodesE E.S level pool → edgeMps E fuel level pool misses r = some (some r') →
    EdgeSpaced E m r' ∧ r.tree.num ≤ r'.tree.num ∧ (r'.tree.num = r.tree.num → r'.tree = r.tree ∧ r'.ids = r.ids) ∧ ∀ i, i < r.tree.num → r'.tree.pts i = r.tree.pts i := by
  induction fuel with
  | zero => intro level pool misses r r' _ _ _ _ h; simp [edgeMps] at h
  | succ fuel ih =>
    intro level pool misses r r' hr hs hne hd h
    obtain ⟨r1, v, e1, h1, -⟩ := edgeDart_spec hE hr level hne hd
    obtain ⟨s1, s2, s3, s4⟩ := edgeDart_floor hE hm hr hs hne hd e1
    have hnum : r.tree.num ≤ r1.tree.num ∧ (r1.tree.num = r.tree.num → r1.tree = r.tree ∧ r1.ids = r.ids) := by
      cases v with
      | false => obtain ⟨a, b⟩ := s2 rfl; exact ⟨by rw [a], fun _ => ⟨a, b⟩⟩
      | true => have := s3 rfl; exact ⟨by omega, fun h => by omega⟩
    have next : ∀ {r2 : EdgeRun}, (EdgeSpaced E m r2 ∧ r1.tree.num ≤ r2.tree.num ∧ (r2.tree.num = r1.tree.num → r2.tree = r1.tree ∧ r2.ids = r1.ids) ∧ ∀ i, i < r1.tree.num → r2.tree.pts i = r1.tree.pts i) →
        EdgeSpaced E m r2 ∧ r.tree.num ≤ r2.tree.num ∧ (r2.tree.num = r.tree.num → r2.tree = r.tree ∧ r2.ids = r.ids) ∧ ∀ i, i < r.tree.num → r2.tree.pts i = r.tree.pts i := by
      rintro r2 ⟨t1, t2, t3, t4⟩
      refine ⟨t1, hnum.1.trans t2, fun h => ?_, fun i hi => ?_⟩
      · obtain ⟨a, b⟩ := hnum.2 (by omega)
        obtain ⟨c, d⟩ := t3 (by omega)
        exact ⟨c.trans a, d.trans b⟩
      · rw [t4 i (by omega), s4 i hi]
    rw [edgeMps] at h
    simp only [e1] at h
    generalize (if v = true then 0 else misses + 1) = k at h
    by_cases hk : k = 100
    · rw [if_pos hk] at h
      obtain ⟨new, en, dn, -⟩ := refineSeq_poolE (distance 3) E.S level (coveredEdge r1.tree.asSTree E.corner E.L E.ratio)
        (CoveredE r1.tree.asSTree E.corner E.ratio)
        (fun A B => coveredEdge_spec r1.tree.asSTree E.corner h1.wf (.inr hE.corner) E.L E.ratio hE.L0 hE.L1 hE.ratio0 hE.ratio1 A B) pool hd
      rw [en] at h
      simp only at h
      split at h
      · obtain rfl := Option.some.inj (Option.some.inj h)
        exact next ⟨s1, le_rfl, fun _ => ⟨rfl, rfl⟩, fun _ _ => rfl⟩
      · next h0 => exact next (ih (level + 1) new 0 r1 r' h1 s1 (fun h => h0 (by rw [h]; rfl)) dn h)
    · rw [if_neg hk] at h
      exact next (ih level pool k r1 r' h1 s1 hne hd h)

/-! ## The Lipschitz pass, once more -/

/-- Nothing is left to do for the Lipschitz pass. -/
def LipDone (P : PointStore ℝ) (ln : Links) (L : ℝ) : Prop :=
  ∀ i, i < P.num → ∀ j ∈ nbrs P ln i, j ≠ i → radius P i ≤ radius P j + L * distance 3 (P.pts i) (P.pts j)

theorem lipTreeLoop_done {L : ℝ} (hL : 0 ≤ L) {ln : Links} {order : List Nat} (fuel : Nat) : ∀ {P : PointStore ℝ}, SphereTree P ln → order.Perm (List.range P.num) → ∀ {shrunk : Bool} {Q : PointStore ℝ} {sh : Bool},
    lipTreeLoop ln L order fuel P (radius P) shrunk = some (Q, sh) → LipDone Q ln L := by
  induction fuel with
  | zero => intro P _ _ shrunk Q sh h; simp [lipTreeLoop] at h
  | succ fuel ih =>
    intro P hP hp shrunk Q sh h
    obtain ⟨Q1, ch, e, eQ, hsame, htQ, hle, hrd, hch⟩ := round_step hP hL hp
    simp only [lipTreeLoop, e] at h
    rw [← eQ] at h
    by_cases hc : ch = true
    · rw [if_pos hc] at h
      exact ih htQ (by rw [hsame.num]; exact hp) h
    · rw [if_neg hc] at h
      obtain ⟨rfl, -⟩ := Prod.mk.inj (Option.some.inj h)
      have hr : ∀ i, i < P.num → radius Q1 i = radius P i := fun i hi => le_antisymm (hle i) (not_lt.1 fun hlt => hc (hch.2 ⟨i, hi, hlt⟩))
      have hr' : ∀ i, radius Q1 i = radius P i := fun i => by
        by_cases hi : i < P.num
        · exact hr i hi
        · have := (writeRadii_spec (radius Q1) (List.range P.num) P ln).2.2 i
          rw [← eQ, if_neg (by rw [List.mem_range]; exact hi)] at this
          exact this
      have hQP : Q1 = P := by
        have hpts : Q1.pts = P.pts := by
          funext i d
          by_cases hd : d = P.dim
          · have := hr' i
            unfold radius at this
            rw [hsame.dim] at this
            rw [hd]; exact this
          · exact hsame.pts i d hd
        have h1 := hsame.num
        have h2 := hsame.dim
        have h3 := hsame.lt
        cases Q1; cases P
        simp only at hpts h1 h2 h3
        subst hpts h1 h2 h3
        rfl
      rw [hQP]
      intro i hi j hj hji
      rw [← hr i hi]
      exact (hrd i hi).1 j hj hji

theorem lipTree_done {L : ℝ} (hL : 0 ≤ L) {P : PointStore ℝ} {ln : Links} (hP : SphereTree P ln) {Q : PointStore ℝ} {sh : Bool} (h : lipTree ln L P.num P false = some (Q, sh)) : LipDone Q ln L := by
  obtain ⟨Q', sh', order, e, -, -, hp, el⟩ := lipTree_spec hL hP P.num le_rfl false
  obtain ⟨rfl, rfl⟩ := Prod.mk.inj (Option.some.inj (h.symm.trans e))
  exact lipTreeLoop_done hL _ hP hp el

theorem lipTree_again {L : ℝ} (hL : 0 ≤ L) {P : PointStore ℝ} {ln : Links} (hP : SphereTree P ln) (hd : LipDone P ln L) {Q : PointStore ℝ} {sh : Bool} (h : lipTree ln L P.num P false = some (Q, sh)) : sh = false := by
  obtain ⟨Q', sh', order, e, -, -, hp, el⟩ := lipTree_spec hL hP P.num le_rfl false
  obtain ⟨rfl, rfl⟩ := Prod.mk.inj (Option.some.inj (h.symm.trans e))
  obtain ⟨k, hk⟩ : ∃ k, P.num = k + 1 := ⟨P.num - 1, by have := hP.tree.num_pos; omega⟩
  obtain ⟨Q1, ch, e1, eQ, -, -, hle, hrd, hch⟩ := round_step hP hL hp
  have hc : ¬ ch = true := by
    rw [hch]
    rintro ⟨i, hi, hlt⟩
    rcases (hrd i hi).2 with h | ⟨j, hj, hji, h⟩
    · linarith
    · have := hd i hi j hj hji
      linarith
  rw [hk] at el
  simp only [lipTreeLoop, e1, if_neg hc] at el
  exact (Prod.mk.inj (Option.some.inj el)).2.symm

/-! ## The validation of the sizes, once more -/

theorem narrowLimit_floor {th tol rmin : ℝ} {x a b : V3} {l : ℝ} (e : narrowLimit th tol rmin x a b = some l) : max tol rmin ≤ l := by
  have key : ∀ k : ℝ, ¬ k < tol → max tol rmin ≤ (if k < rmin then rmin else k) := fun k hk => by
    split
    · exact max_le (by linarith) le_rfl
    · exact max_le (by linarith) (by linarith)
  unfold narrowLimit at e
  split at e
  · split at e
    · simp at e
    · split at e
      · split at e
        · simp at e
        · split at e
          · simp at e
          · next h => rw [← Option.some.inj e]; exact key _ h
      · simp at e
  · simp at e

/-- The condition of `EdgeFloor` on the narrow regions holds if the tolerance or the least radius is at least `m`. -/
theorem narrow_of_tol {E : EdgeSetup} {m : ℝ} (h : m ≤ max E.tol E.rmin) {x a b : V3} {l : ℝ} (e : narrowLimit E.th E.tol E.rmin x a b = some l) : m ≤ l := h.trans (narrowLimit_floor e)

/-- No other edge allows less than `m` at `x`. -/
def NarrowFloor (E : EdgeSetup) (m : ℝ) (ids : List Nat) (x : V3) (ei : Nat) : Prop :=
  ∀ (j ej : Nat), ids[j]? = some ej → ei ≠ ej → ∀ a b, E.S.at ej 0 = some a → E.S.at ej 1 = some b → ∀ l, narrowLimit E.th E.tol E.rmin x (toV3 a) (toV3 b) = some l → m ≤ l

theorem narrowNear_drop {E : EdgeSetup} {m : ℝ} (hm0 : 0 < m) {ids : List Nat} {x : Nat → ℝ} {ei : Nat} (hm : NarrowFloor E m ids (toV3 x) ei) (l : List Nat) : ∀ {s s' : ℝ × Bool}, m ≤ s.1 →
    narrowNear E ids x ei l s = some s' → s'.1 ≤ s.1 ∧ m ≤ s'.1 ∧ (s'.2 = true → s.2 = true ∨ (1 + 1e-8) * s'.1 ≤ s.1) := by
  induction l with
  | nil =>
    intro s s' hs h
    obtain rfl := Option.some.inj h
    exact ⟨le_rfl, hs, .inl⟩
  | cons j l ih =>
    intro s s' hs h
    rw [narrowNear] at h
    split at h
    · simp at h
    · next ej hj =>
      split at h
      · exact ih hs h
      · next hne =>
        split at h
        · next a b ha hb =>
          cases hl : narrowLimit E.th E.tol E.rmin (toV3 x) (toV3 a) (toV3 b) with
          | none => rw [hl] at h; exact ih hs h
          | some v =>
            have hv := hm j ej hj hne a b ha hb v hl
            rw [hl] at h
            unfold shrinkTo at h
            simp only at h
            split at h
            · exact ih hs h
            · next hlt =>
              obtain ⟨h1, h2, -⟩ := ih (s := (v, true)) hv h
              rw [not_lt] at hlt
              simp only at h1
              exact ⟨by nlinarith, h2, fun _ => .inr (by nlinarith)⟩
        · simp at h

theorem narrowPass_drop {E : EdgeSetup} {m : ℝ} (hm0 : 0 < m) {ids : List Nat} {ln : Links} {P : PointStore ℝ} (hdim : P.dim = 3)
    (hm : ∀ i, i < P.num → ∀ ei, ids[i]? = some ei → NarrowFloor E m ids (toV3 (P.pts i)) ei) (hP : ∀ i, i < P.num → m ≤ radius P i) (k : Nat) (hk : k ≤ P.num) :
    ∀ {Q : PointStore ℝ} {sh : Bool}, narrowPass E ln ids P k = some (Q, sh) → SameBut P Q ∧
    (∀ i, k ≤ i → radius Q i = radius P i) ∧ (∀ i, radius Q i ≤ radius P i) ∧ (∀ i, i < P.num → m ≤ radius Q i) ∧ (sh = true → ∃ i, i < k ∧ (1 + 1e-8) * radius Q i ≤ radius P i) := by
  induction k with
  | zero =>
    intro Q sh h
    obtain ⟨rfl, rfl⟩ := Prod.mk.inj (Option.some.inj h)
    exact ⟨.refl _, fun _ _ => rfl, fun _ => le_rfl, hP, by simp⟩
  | succ k ih =>
    intro Q sh h
    rw [narrowPass] at h
    split at h
    · simp at h
    · next Q1 sh1 e1 =>
      obtain ⟨a0, a1, a2, a3, a4⟩ := ih (by omega) e1
      split at h
      · next ei l hei _ =>
        split at h
        · simp at h
        · next s es =>
          have hv : toV3 (Q1.pts k) = toV3 (P.pts k) := funext fun d => a0.pts k d.val (by rw [hdim]; omega)
          obtain ⟨b1, b2, b3⟩ := narrowNear_drop hm0 (by rw [hv]; exact hm k (by omega) ei hei) _ (s := (radius Q1 k, sh1)) (a3 k (by omega)) es
          obtain ⟨rfl, rfl⟩ := Prod.mk.inj (Option.some.inj h)
          simp only at b1 b3
          have hrk := a1 k le_rfl
          refine ⟨a0.trans (sameBut_setAttr Q1 k _), fun i hi => ?_, fun i => ?_, fun i hi => ?_, fun hs => ?_⟩
          · rw [radius_setAttr, if_neg (by omega)]; exact a1 i (by omega)
          · rw [radius_setAttr]
            split
            · next h' => subst h'; linarith
            · exact a2 i
          · rw [radius_setAttr]
            split
            · exact b2
            · exact a3 i hi
          · rcases b3 hs with h' | h'
            · obtain ⟨i, hi, h''⟩ := a4 h'
              exact ⟨i, by omega, by rw [radius_setAttr, if_neg (by omega)]; exact h''⟩
            · exact ⟨k, by omega, by rw [radius_setAttr, if_pos rfl, ← hrk]; exact h'⟩
      · simp at h

/-- What the bound gives for the spheres of a run. -/
theorem EdgeSpaced.narrow {E : EdgeSetup} {m : ℝ} (hm : EdgeFloor E m) {r : EdgeRun} (hr : EdgeRunOk E r) (hs : EdgeSpaced E m r) {i ei : Nat} (hei : r.ids[i]? = some ei) :
    NarrowFloor E m r.ids (toV3 (r.tree.pts i)) ei := by
  intro j ej hj hne a b ha hb l hl
  obtain ⟨h1, y, h2, h3, -⟩ := hr.on i ei hei
  have hi : i < r.tree.num := by rw [← hr.len]; exact (List.getElem?_eq_some_iff.1 hei).1
  have hy : toV3 (r.tree.pts i) = toV3 y := funext fun d => h3 d.val d.isLt
  have hat : ∀ {c : Nat} {z : Nat → ℝ}, E.S.at ej c = some z → z = E.S.point (E.S.corner ej c) := fun {c z} h => by
    unfold PoolSurface.at at h
    split at h
    · exact (Option.some.inj h).symm
    · simp at h
  rw [hy, hat ha, hat hb] at hl
  refine hm.narrow ei h1 y h2 (fun k hk => (hs.far i hi k hk).trans (le_of_eq ?_)) ej (hr.on j ej hj).1 hne l hl
  rw [euclid_congr (x := r.tree.pts i) (fun d hd => h3 d hd) (fun _ _ => rfl)]

/-! ## What every round uses up -/

/-- What is left: spheres still to be placed, and how far the radii can still fall. -/
noncomputable def treePotential (M : Nat) (Λ m : ℝ) (t : SmartTree ℝ) : ℝ :=
  ((M : ℝ) - t.num) * (Λ + 1) + ∑ i ∈ Finset.range t.num, Real.log (t.pts i 3 / m)

theorem EdgeRunOk.most {E : EdgeSetup} {r : EdgeRun} (hr : EdgeRunOk E r) {i : Nat} (hi : i < r.tree.num) : r.tree.pts i 3 ≤ max E.rmax E.rmin := by
  have hi' : i < r.ids.length := by rw [hr.len]; exact hi
  obtain ⟨-, y, -, -, h⟩ := hr.on i r.ids[i] (List.getElem?_eq_getElem hi')
  exact h.rmax

theorem treePotential_nonneg {m : ℝ} (hm : 0 < m) {t : SmartTree ℝ} (hs : ∀ i, i < t.num → m ≤ t.pts i 3) {M : Nat} (hM : t.num ≤ M) {Λ : ℝ} (hΛ : 0 ≤ Λ) : 0 ≤ treePotential M Λ m t := by
  have h1 : (t.num : ℝ) ≤ M := by exact_mod_cast hM
  refine add_nonneg (mul_nonneg (by linarith) (by linarith)) (Finset.sum_nonneg fun i hi => Real.log_nonneg ?_)
  rw [le_div_iff₀ hm, one_mul]
  exact hs i (Finset.mem_range.1 hi)

theorem treePotential_new {m R : ℝ} (hm : 0 < m) {t t1 : SmartTree ℝ} (least : ∀ i, i < t1.num → m ≤ t1.pts i 3) (most : ∀ i, i < t1.num → t1.pts i 3 ≤ R) {M : Nat} {Λ : ℝ} (hΛ : Real.log (R / m) ≤ Λ)
    (hlt : t.num < t1.num) (hold : ∀ i, i < t.num → t1.pts i = t.pts i) : treePotential M Λ m t1 ≤ treePotential M Λ m t - 1 := by
  obtain ⟨k, hk⟩ : ∃ k, t1.num = t.num + (k + 1) := ⟨t1.num - t.num - 1, by omega⟩
  unfold treePotential
  rw [hk, Finset.sum_range_add]
  have e1 : ∑ i ∈ Finset.range t.num, Real.log (t1.pts i 3 / m) = ∑ i ∈ Finset.range t.num, Real.log (t.pts i 3 / m) :=
    Finset.sum_congr rfl fun i hi => by rw [hold i (Finset.mem_range.1 hi)]
  have e2 : ∑ x ∈ Finset.range (k + 1), Real.log (t1.pts (t.num + x) 3 / m) ≤ (k + 1) * Λ := by
    have := Finset.sum_le_card_nsmul (Finset.range (k + 1)) (fun x => Real.log (t1.pts (t.num + x) 3 / m)) Λ fun x hx => by
      have hx := Finset.mem_range.1 hx
      have h1 := least (t.num + x) (by omega)
      have h2 := most (t.num + x) (by omega)
      exact (Real.log_le_log (div_pos (by linarith) hm) (by gcongr)).trans hΛ
    rw [Finset.card_range, nsmul_eq_mul] at this
    push_cast at this
    exact this
  rw [e1]
  push_cast
  nlinarith [(Nat.cast_nonneg k : (0 : ℝ) ≤ k)]

theorem treePotential_mono {m : ℝ} (hm : 0 < m) {t t1 : SmartTree ℝ} {M : Nat} {Λ : ℝ} (hn : t1.num = t.num) (hm1 : ∀ i, i < t.num → m ≤ t1.pts i 3)
    (hle : ∀ i, i < t.num → t1.pts i 3 ≤ t.pts i 3) : treePotential M Λ m t1 ≤ treePotential M Λ m t := by
  unfold treePotential
  rw [hn]
  refine add_le_add le_rfl (Finset.sum_le_sum fun i hi => ?_)
  have hi := Finset.mem_range.1 hi
  have := hm1 i hi
  exact Real.log_le_log (div_pos (by linarith) hm) (div_le_div_of_nonneg_right (hle i hi) hm.le)

theorem treePotential_drop {m : ℝ} (hm : 0 < m) {t t1 : SmartTree ℝ} {M : Nat} {Λ : ℝ} (hn : t1.num = t.num) (hm1 : ∀ i, i < t.num → m ≤ t1.pts i 3)
    (hle : ∀ i, i < t.num → t1.pts i 3 ≤ t.pts i 3) {k : Nat} (hk : k < t.num) (hd : (1 + 1e-8) * t1.pts k 3 ≤ t.pts k 3) :
    treePotential M Λ m t1 ≤ treePotential M Λ m t - Real.log (1 + 1e-8) := by
  unfold treePotential
  rw [hn]
  have hk' := Finset.mem_range.2 hk
  rw [← Finset.add_sum_erase _ _ hk', ← Finset.add_sum_erase _ (fun i => Real.log (t.pts i 3 / m)) hk']
  have h1 : ∑ i ∈ (Finset.range t.num).erase k, Real.log (t1.pts i 3 / m) ≤ ∑ i ∈ (Finset.range t.num).erase k, Real.log (t.pts i 3 / m) := by
    refine Finset.sum_le_sum fun i hi => ?_
    have hi := Finset.mem_range.1 (Finset.mem_of_mem_erase hi)
    have := hm1 i hi
    exact Real.log_le_log (div_pos (by linarith) hm) (div_le_div_of_nonneg_right (hle i hi) hm.le)
  have hp := hm1 k hk
  have h2 : Real.log (1 + 1e-8) + Real.log (t1.pts k 3 / m) ≤ Real.log (t.pts k 3 / m) := by
    rw [← Real.log_mul (by norm_num) (div_pos (by linarith) hm).ne']
    refine Real.log_le_log (mul_pos (by norm_num) (div_pos (by linarith) hm)) ?_
    rw [← mul_div_assoc]
    exact div_le_div_of_nonneg_right hd hm.le
  linarith

/-- The spacing and the segments bound the number of spheres, whatever the random numbers are. -/
theorem edgeSpaced_count {E : EdgeSetup} (hE : E.Ok) {m : ℝ} (hm : EdgeFloor E m) : ∃ M : Nat, ∀ (U : Nat → ℝ) r, EdgeRunOk { E with U := U } r → EdgeSpaced { E with U := U } m r → r.tree.num ≤ M := by
  obtain ⟨B, hB⟩ : ∃ B, ∀ f, f < E.S.numFaces → ∀ c, c < 2 → ∀ d, d < 3 → |E.S.point (E.S.corner f c) d| ≤ B := by
    refine ⟨∑ f ∈ Finset.range E.S.numFaces, ∑ c ∈ Finset.range 2, ∑ d ∈ Finset.range 3, |E.S.point (E.S.corner f c) d|, fun f hf c hc d hd => ?_⟩
    refine le_trans ?_ (Finset.single_le_sum (f := fun f => ∑ c ∈ Finset.range 2, ∑ d ∈ Finset.range 3, |E.S.point (E.S.corner f c) d|) (fun _ _ => by positivity) (Finset.mem_range.2 hf))
    refine le_trans ?_ (Finset.single_le_sum (f := fun c => ∑ d ∈ Finset.range 3, |E.S.point (E.S.corner f c) d|) (fun _ _ => by positivity) (Finset.mem_range.2 hc))
    exact Finset.single_le_sum (f := fun d => |E.S.point (E.S.corner f c) d|) (fun _ _ => abs_nonneg _) (Finset.mem_range.2 hd)
  obtain ⟨M, hM⟩ := packing (mul_pos (coverBeta_pos hE) hm.pos) B
  refine ⟨M, fun U r hr hs => ?_⟩
  have := hM ((List.range r.tree.num).map r.tree.pts) (fun p hp d hd => ?_) ?_
  · simpa using this
  · obtain ⟨i, hi, rfl⟩ := List.mem_map.1 hp
    have hi : i < r.ids.length := by rw [hr.len]; exact List.mem_range.1 hi
    obtain ⟨hf, y, ⟨u, v, hu, hv, huv, hy⟩, h2, -⟩ := hr.on i r.ids[i] (List.getElem?_eq_getElem hi)
    rw [h2 d hd, hy d]
    have a := abs_le.1 (hB _ hf 0 (by omega) d hd)
    have b := abs_le.1 (hB _ hf 1 (by omega) d hd)
    rw [abs_le]
    constructor <;> nlinarith [a.1, a.2, b.1, b.2]
  · rw [List.pairwise_map]
    refine (List.pairwise_lt_range).imp_of_mem fun {i j} _ hj hij => hs.apart i j hij (List.mem_range.1 hj)

/-! ## The rounds -/

theorem EdgeSpaced.reshaped {E : EdgeSetup} {m : ℝ} {r : EdgeRun} (h : EdgeSpaced E m r) {P : PointStore ℝ} (hs : SameBut r.tree.spheres P) (hm : ∀ i, i < r.tree.num → m ≤ P.pts i 3) :
    EdgeSpaced E m { r with tree := { r.tree with pts := P.pts } } := by
  refine ⟨hm, fun i j hij hj => (h.apart i j hij hj).trans (le_of_eq ?_), fun i hi k hk => (h.far i hi k hk).trans (le_of_eq ?_)⟩
  · exact (euclid_congr (fun d hd => hs.pts i d (by show d ≠ 3; omega)) fun d hd => hs.pts j d (by show d ≠ 3; omega)).symm
  · rw [euclid_congr (x := P.pts i) (fun d hd => hs.pts i d (by show d ≠ 3; omega)) (fun _ _ => rfl)]
    rfl

/-- One round after its sampling pass. -/
theorem edgeRound_step {E : EdgeSetup} (hE : E.Ok) {m : ℝ} (hm : EdgeFloor E m) {r1 : EdgeRun} (h1 : EdgeRunOk E r1) (s1 : EdgeSpaced E m r1) (hnum : 0 < r1.tree.num) :
    ∃ P sh, lipTree r1.tree.links E.L r1.tree.num r1.tree.spheres false = some (P, sh) ∧ EdgeRunOk E { r1 with tree := { r1.tree with pts := P.pts } } ∧
      EdgeSpaced E m { r1 with tree := { r1.tree with pts := P.pts } } ∧ LipDone ({ r1.tree with pts := P.pts } : SmartTree ℝ).spheres r1.tree.links E.L ∧
      (∀ i, i < r1.tree.num → P.pts i 3 ≤ r1.tree.pts i 3) ∧ (LipDone r1.tree.spheres r1.tree.links E.L → sh = false) ∧
      ∃ Q sh', narrowPass E r1.tree.links r1.ids P r1.tree.num = some (Q, sh') ∧ EdgeRunOk E { r1 with tree := { r1.tree with pts := Q.pts } } ∧
        EdgeSpaced E m { r1 with tree := { r1.tree with pts := Q.pts } } ∧ (∀ i, i < r1.tree.num → Q.pts i 3 ≤ r1.tree.pts i 3) ∧
        (sh' = true → ∃ k, k < r1.tree.num ∧ (1 + 1e-8) * Q.pts k 3 ≤ r1.tree.pts k 3) := by
  have ht1 : SphereTree r1.tree.spheres r1.tree.links := h1.wf.resolve_left (by show r1.tree.num ≠ 0; omega)
  obtain ⟨P, sh, eP, hs, hP, hle, -, -, hlow, -⟩ := C27_lipschitz_tree_partial E.L hE.L0 r1.tree.spheres r1.tree.links ht1 r1.tree.num le_rfl false
  have hPm : ∀ i, i < r1.tree.num → m ≤ P.pts i 3 := hlow (fun _ => m) s1.least fun i j _ _ => by
    have := mul_nonneg hE.L0 (euclid_nonneg 3 (r1.tree.spheres.pts i) (r1.tree.spheres.pts j))
    linarith
  have eS : ({ r1.tree with pts := P.pts } : SmartTree ℝ).spheres = P := SmartTree.Wf_pts hs
  have hids : ∀ (j : Nat) (f : Nat), r1.ids[j]? = some f → f < E.S.numFaces := fun j f hj => (h1.on j f hj).1
  obtain ⟨Q, sh', eQ, hsQ, hQ, hleQ, -⟩ := narrowPass_spec hE hids hP (by rw [hs.num]; exact h1.len) r1.tree.num (by rw [hs.num]; exact le_rfl)
  have hPn : P.num = r1.tree.num := hs.num
  obtain ⟨-, -, -, c3, c4⟩ := narrowPass_drop hm.pos hP.dim (fun i _ ei hei => by
    have hv : toV3 (P.pts i) = toV3 (r1.tree.pts i) := funext fun d => hs.pts i d.val (by show d.val ≠ 3; omega)
    rw [hv]; exact s1.narrow hm h1 hei) (fun i hi => by rw [hP.radius]; exact hPm i (by rw [← hPn]; exact hi)) r1.tree.num hPn.ge eQ
  have hQP : ∀ i, i < r1.tree.num → Q.pts i 3 ≤ r1.tree.pts i 3 := fun i hi => by
    rw [← hQ.radius]
    exact (hleQ i).trans (by rw [hP.radius]; exact hle i hi)
  refine ⟨P, sh, eP, h1.shrunk hs hP hle, s1.reshaped hs hPm, by rw [eS]; exact lipTree_done hE.L0 ht1 eP, hle, fun hd => lipTree_again hE.L0 ht1 hd eP, Q, sh', eQ, h1.shrunk (hs.trans hsQ) hQ hQP,
    s1.reshaped (hs.trans hsQ) fun i hi => ?_, hQP, fun h => ?_⟩
  · rw [← hQ.radius]; exact c3 i (by rw [hPn]; exact hi)
  · obtain ⟨k, hk, h⟩ := c4 h
    rw [hQ.radius, hP.radius] at h
    exact ⟨k, hk, h.trans (hle k hk)⟩

/-- Some point of a sharp edge lies outside all corner spheres. -/
def EdgeOpen (E : EdgeSetup) : Prop :=
  ∃ f, f < E.S.numFaces ∧ ∃ x, InSegment (E.S.point (E.S.corner f 0)) (E.S.point (E.S.corner f 1)) x ∧ ¬ InBall E.corner 1 x

/-- The sampling pass on its own. -/
theorem edgePass_spec {E : EdgeSetup} (hE : E.Ok) {m : ℝ} (hm : EdgeFloor E m) (hne : EdgeOpen E) (mps : Nat) {r : EdgeRun} (hr : EdgeRunOk E r) (hs : EdgeSpaced E m r) :
    ∃ pool, initialEdges (distance 3) E.S E.S.numFaces = some pool ∧ ∃ o, edgeMps E mps 0 pool 0 r = some o ∧ ∀ r1, o = some r1 →
      EdgeRunOk E r1 ∧ EdgeSpaced E m r1 ∧ 0 < r1.tree.num ∧ r.tree.num ≤ r1.tree.num ∧ (r1.tree.num = r.tree.num → r1.tree = r.tree) ∧ ∀ i, i < r.tree.num → r1.tree.pts i = r.tree.pts i := by
  obtain ⟨pool, ep, dp, qp⟩ := initialEdges_spec (distance 3) E.S hE.valid E.S.numFaces le_rfl
  have hpne : pool ≠ [] := by
    rintro rfl
    obtain ⟨e, he, -⟩ := qp 0 hE.some_edge _ ⟨1, 0, by norm_num, le_rfl, by norm_num, fun d => rfl⟩
    simp at he
  obtain ⟨o, eo, ho⟩ := edgeMps_spec hE mps 0 pool 0 r hr hpne dp
  refine ⟨pool, ep, o, eo, fun r1 e1 => ?_⟩
  obtain ⟨h1, -, c1⟩ := ho r1 e1
  obtain ⟨a1, a2, a3, a4⟩ := edgeMps_floor hE hm mps 0 pool 0 r r1 hr hs hpne dp (by rw [eo, e1])
  refine ⟨h1, a1, ?_, a2, fun h => (a3 h).1, a4⟩
  obtain ⟨f, hf, x, hx, hn⟩ := hne
  obtain ⟨s, hs, -⟩ := (c1 x (qp f hf x hx)).resolve_right hn
  have : s < r1.tree.num := hs
  omega

/-- Whatever is returned is spaced. -/
theorem edgeLoop_spaced {E : EdgeSetup} (hE : E.Ok) {m : ℝ} (hm : EdgeFloor E m) (hne : EdgeOpen E) (mps fuel : Nat) : ∀ r r', EdgeRunOk E r → EdgeSpaced E m r →
    edgeSphereLoop E mps fuel r = some (some r') → EdgeRunOk E r' ∧ EdgeSpaced E m r' := by
  induction fuel with
  | zero => intro r r' _ _ h; simp [edgeSphereLoop] at h
  | succ fuel ih =>
    intro r r' hr hs h
    obtain ⟨pool, ep, o, eo, ho⟩ := edgePass_spec hE hm hne mps hr hs
    rw [edgeSphereLoop] at h
    simp only [ep, eo] at h
    cases o with
    | none => simp at h
    | some r1 =>
      obtain ⟨h1, s1, hpos, -⟩ := ho r1 rfl
      obtain ⟨P, sh, eP, p1, p2, -, -, -, Q, sh', eQ, q1, q2, -, -⟩ := edgeRound_step hE hm h1 s1 hpos
      simp only [eP] at h
      cases sh with
      | true => exact ih _ _ p1 p2 h
      | false =>
        simp only [eQ] at h
        cases sh' with
        | true => exact ih _ _ q1 q2 h
        | false =>
          obtain rfl := Option.some.inj (Option.some.inj h)
          exact ⟨q1, q2⟩

/-- A sampling pass threw all its darts. -/
def PassUsedUp (E : EdgeSetup) (m : ℝ) (mps : Nat) : Prop :=
  ∃ r pool, EdgeRunOk E r ∧ EdgeSpaced E m r ∧ initialEdges (distance 3) E.S E.S.numFaces = some pool ∧ edgeMps E mps 0 pool 0 r = some none

theorem edgeLoop_ends {E : EdgeSetup} (hE : E.Ok) {m : ℝ} (hm : EdgeFloor E m) (hne : EdgeOpen E) {M : Nat} (hM : ∀ r, EdgeRunOk E r → EdgeSpaced E m r → r.tree.num ≤ M) {Λ : ℝ}
    (hΛ : Λ = Real.log (max E.rmax E.rmin / m)) (mps k : Nat) : ∀ (n : Nat) (r : EdgeRun) (b : Bool), EdgeRunOk E r → EdgeSpaced E m r → (b = true → LipDone r.tree.spheres r.tree.links E.L) →
    treePotential M Λ m r.tree < n * Real.log (1 + 1e-8) → 2 * n + (if b then 0 else 1) ≤ k → ∀ fuel, k ≤ fuel →
    (∃ r', edgeSphereLoop E mps fuel r = some (some r')) ∨ (edgeSphereLoop E mps fuel r = some none ∧ PassUsedUp E m mps) := by
  have hm0 := hm.pos
  have hΛ0 : 0 ≤ Λ := by
    rw [hΛ]
    refine Real.log_nonneg ?_
    rw [le_div_iff₀ hm0, one_mul]
    exact hm.rmax.trans (le_max_left _ _)
  have hε : Real.log (1 + 1e-8) ≤ 1 := (Real.log_le_sub_one_of_pos (by norm_num)).trans (by norm_num)
  induction k with
  | zero =>
    intro n r b hr hs _ hp hn
    have := treePotential_nonneg hm0 hs.least (hM r hr hs) hΛ0
    obtain rfl : n = 0 := by omega
    simp only [Nat.cast_zero, zero_mul] at hp
    linarith
  | succ k ih =>
    intro n r b hr hs hb hp hn fuel hf
    obtain ⟨fuel, rfl⟩ : ∃ f, fuel = f + 1 := ⟨fuel - 1, by omega⟩
    obtain ⟨n, rfl⟩ : ∃ n', n = n' + 1 := by
      rcases n with _ | n
      · have := treePotential_nonneg hm0 hs.least (hM r hr hs) hΛ0
        simp only [Nat.cast_zero, zero_mul] at hp
        linarith
      · exact ⟨n, rfl⟩
    push_cast at hp
    obtain ⟨pool, ep, o, eo, ho⟩ := edgePass_spec hE hm hne mps hr hs
    rw [edgeSphereLoop]
    simp only [ep, eo]
    cases o with
    | none => exact .inr ⟨rfl, r, pool, hr, hs, ep, eo⟩
    | some r1 =>
      obtain ⟨h1, s1, hpos, hge, heq, hold⟩ := ho r1 rfl
      obtain ⟨P, sh, eP, p1, p2, p3, p4, p5, Q, sh', eQ, q1, q2, q3, q4⟩ := edgeRound_step hE hm h1 s1 hpos
      have hφ : treePotential M Λ m r1.tree ≤ treePotential M Λ m r.tree := by
        rcases Nat.eq_or_lt_of_le hge with h | h
        · rw [heq h.symm]
        · linarith [treePotential_new hm0 s1.least (fun i hi => h1.most hi) (M := M) hΛ.ge h hold]
      simp only [eP]
      cases sh with
      | true =>
        have hφP := treePotential_mono (t := r1.tree) (t1 := { r1.tree with pts := P.pts }) hm0 (M := M) (Λ := Λ) rfl p2.least p4
        rcases Nat.eq_or_lt_of_le hge with h | h
        · have hb' : b = false := by
            cases b with
            | false => rfl
            | true =>
              have := p5 (by rw [heq h.symm]; exact hb rfl)
              simp at this
          subst hb'
          refine ih (n + 1) _ true p1 p2 (fun _ => p3) (by push_cast; linarith) (by simp at hn ⊢; omega) fuel (by omega)
        · have := treePotential_new hm0 s1.least (fun i hi => h1.most hi) (M := M) hΛ.ge h hold
          refine ih n _ true p1 p2 (fun _ => p3) (by linarith) (by simp; omega) fuel (by omega)
      | false =>
        simp only [eQ]
        cases sh' with
        | false => exact .inl ⟨_, rfl⟩
        | true =>
          obtain ⟨j, hj, hdrop⟩ := q4 rfl
          have hφQ := treePotential_drop (t := r1.tree) (t1 := { r1.tree with pts := Q.pts }) hm0 (M := M) (Λ := Λ) rfl q2.least q3 hj hdrop
          refine ih n _ false q1 q2 (by simp) (by linarith) (by simp; omega) fuel (by omega)

/-! ## The claim -/

theorem EdgeFloor.any_numbers {E : EdgeSetup} {m : ℝ} (h : EdgeFloor E m) (U : Nat → ℝ) : EdgeFloor { E with U := U } m := ⟨h.pos, h.rmax, h.corner, h.clear, h.narrow⟩

theorem EdgeSetup.Ok.any_numbers {E : EdgeSetup} (h : E.Ok) {U : Nat → ℝ} (hU : ∀ k, 0 ≤ U k ∧ U k < 1) : ({ E with U := U } : EdgeSetup).Ok :=
  ⟨h.valid, h.some_edge, h.corner, h.L0, h.L1, h.ratio0, h.ratio1, h.rmax, h.rmin, hU, h.surf, h.edge, h.size⟩

/-- **C112.** If everything that limits a radius is at least `m > 0`, one number bounds the spheres on the sharp edges and another the rounds of the outer loop, for all sequences of random numbers: whatever
is returned has radii at least `m`, centres at least `coverBeta * m` apart and no more spheres than that, and with that many rounds the run returns unless a sampling pass uses up all its darts. -/
theorem C112_edge_rounds (E : EdgeSetup) (hE : E.Ok) (m : ℝ) (hm : EdgeFloor E m) (hne : EdgeOpen E) :
    ∃ K M : Nat, ∀ U : Nat → ℝ, (∀ k, 0 ≤ U k ∧ U k < 1) → ∀ mps fuel,
      (∀ r, edgeSpheres { E with U := U } mps fuel = some (some r) → EdgeResult { E with U := U } r ∧ r.tree.num ≤ M ∧
        (∀ i, i < r.tree.num → m ≤ r.tree.pts i 3) ∧ ∀ i j, i < j → j < r.tree.num → coverBeta E.ratio * m ≤ euclid 3 (r.tree.pts i) (r.tree.pts j)) ∧
      (K ≤ fuel → (∃ r, edgeSpheres { E with U := U } mps fuel = some (some r)) ∨ (edgeSpheres { E with U := U } mps fuel = some none ∧ PassUsedUp { E with U := U } m mps)) := by
  obtain ⟨M, hM⟩ := edgeSpaced_count hE hm
  have hε : 0 < Real.log (1 + 1e-8) := Real.log_pos (by norm_num)
  obtain ⟨n, hn⟩ := exists_nat_gt (M * (Real.log (max E.rmax E.rmin / m) + 1) / Real.log (1 + 1e-8))
  rw [div_lt_iff₀ hε] at hn
  refine ⟨2 * n + 1, M, fun U hU mps fuel => ⟨fun r e => ?_, fun hf => ?_⟩⟩
  · have hs0 : EdgeSpaced { E with U := U } m ⟨SmartTree.empty (fun _ _ => 0) id id, [], none, 0⟩ := ⟨fun i hi => absurd hi (Nat.not_lt_zero i), fun i j _ hj => absurd hj (Nat.not_lt_zero j), fun i hi => absurd hi (Nat.not_lt_zero i)⟩
    obtain ⟨a, b⟩ := edgeLoop_spaced (hE.any_numbers hU) (hm.any_numbers U) hne mps fuel _ r (edgeRunOk_empty _) hs0 e
    obtain ⟨o, eo, ho⟩ := edgeSphereLoop_spec (hE.any_numbers hU) hne mps fuel _ (edgeRunOk_empty _)
    exact ⟨ho r (Option.some.inj (eo.symm.trans e)), hM U r a b, b.least, b.apart⟩
  · have hs0 : EdgeSpaced { E with U := U } m ⟨SmartTree.empty (fun _ _ => 0) id id, [], none, 0⟩ := ⟨fun i hi => absurd hi (Nat.not_lt_zero i), fun i j _ hj => absurd hj (Nat.not_lt_zero j), fun i hi => absurd hi (Nat.not_lt_zero i)⟩
    refine edgeLoop_ends (hE.any_numbers hU) (hm.any_numbers U) hne (hM U) rfl mps (2 * n + 1) n _ false (edgeRunOk_empty _) hs0 (by simp) ?_ (by simp) fuel hf
    show ((M : ℝ) - (0 : Nat)) * (Real.log (max E.rmax E.rmin / m) + 1) + ∑ i ∈ Finset.range 0, _ < _
    rw [Finset.range_zero, Finset.sum_empty, Nat.cast_zero, sub_zero, add_zero]
    exact hn

/-- The hypotheses hold for `oneEdge` and the function returns there. -/
example : ∃ E : EdgeSetup, E.Ok ∧ EdgeFloor E (4 / 10) ∧ EdgeOpen E ∧ ∃ r, edgeSpheres E 101 1 = some (some r) ∧ r.tree.num = 1 := by
  obtain ⟨E, hE, hne, ⟨r, e, hn, -⟩, hEq, hc⟩ := oneEdge_returns
  refine ⟨E, hE, ?_, hne, r, e, hn⟩
  have h3 : mkSphere 100 0 0 1 3 = 1 := by simp [mkSphere]
  refine ⟨by norm_num, by rw [hEq]; norm_num [oneEdge], fun k hk => ?_, fun f hf x hx _ => ⟨fun s hs => ?_, fun s hs => ?_, fun s hs => ?_⟩, fun f hf _ _ _ g hg hne => ?_⟩
  · rw [hc k hk, h3]; norm_num
  · rw [hEq] at hs
    obtain rfl := Option.some.inj (show some ((25 : ℝ) : WithTop ℝ) = some s from hs)
    exact le_scaleSz fun a ha => by rw [← WithTop.coe_injective ha]; norm_num
  · rw [hEq] at hs
    obtain rfl := Option.some.inj (show some (⊤ : WithTop ℝ) = some s from hs)
    exact le_top
  · rw [hEq] at hs
    obtain rfl := Option.some.inj (show some (⊤ : WithTop ℝ) = some s from hs)
    exact le_top
  · rw [hEq] at hf hg
    have hf : f < 1 := hf
    have hg : g < 1 := hg
    omega

/-! ## Unlucky numbers -/

namespace Unlucky

/-- One edge of length one, a corner sphere far away, the surface turning at distance 1, and every random number zero. -/
noncomputable def setup (corner : STree) : EdgeSetup where
  S := ⟨2, fun i => if i = 0 then mkSphere 0 0 0 0 else mkSphere 1 0 0 0, 1, fun _ i => i⟩
  corner := corner
  q := ⟨fun _ => some ((1 : ℝ) : WithTop ℝ), fun _ => some ⊤, fun _ => some ⊤⟩
  tol := 1 / 10
  th := 1 / 2
  rmax := 100
  rmin := 0
  L := 1 / 2
  ratio := 1 / 2
  rb := fun _ _ => false
  U := fun _ => 0

/-- A piece of the edge and its two ends. -/
def Piece (G : (Nat → ℝ) → Prop) (S : PoolSurface (Nat → ℝ)) (level : Nat) (e : PoolEntry ℝ) (A B : Nat → ℝ) : Prop :=
  edgeCorners midpoint3 S level e = some ⟨A, B, midpoint3 A B⟩ ∧ 0 ≤ A 0 ∧ A 0 < B 0 ∧ B 0 ≤ 1 ∧ e.weight = distance 3 A B ∧ G A ∧ G B

theorem coord_le (x y : Nat → ℝ) : |x 0 - y 0| ≤ euclid 3 x y := by
  refine abs_le_of_sq_le_sq ?_ (euclid_nonneg 3 x y)
  rw [euclid_sq]
  simp only [Finset.sum_range_succ, Finset.sum_range_zero, zero_add]
  nlinarith [sq_nonneg (x 1 - y 1), sq_nonneg (x 2 - y 2)]

theorem Piece.weight_pos {G S level e A B} (h : Piece G S level e A B) : 0 < e.weight := by
  rw [h.2.2.2.2.1, distance_eq]
  have := coord_le A B
  have h1 := h.2.2.1
  rw [abs_of_neg (by linarith)] at this
  linarith

theorem pick_first {e : PoolEntry ℝ} {rest : List (PoolEntry ℝ)} (he : 0 < e.weight) (hr : ∀ x ∈ rest, 0 ≤ x.weight) :
    tablePick (e :: rest).length (fun i => realLt 0 (poolTable (e :: rest) i)) (fun i => realLt (poolTable (e :: rest) i) 0) (e :: rest).length = some 0 := by
  have hw : ∀ i, i < (e :: rest).length → 0 ≤ (match (e :: rest)[i]? with | none => (0 : ℝ) | some e => e.weight) := fun i hi => by
    rw [List.getElem?_eq_getElem hi]
    have hm : (e :: rest)[i] ∈ e :: rest := List.getElem_mem hi
    rcases List.mem_cons.1 hm with h | h
    · simp only [h]; exact he.le
    · exact hr _ h
  obtain ⟨i, ei, hi, h1, -⟩ := pick_share (e :: rest).length (by simp) _ hw 0 ⟨le_rfl, one_pos⟩
  rcases Nat.eq_zero_or_pos i with rfl | hpos
  · exact ei
  · exfalso
    rw [zero_mul] at h1
    have := Finset.single_le_sum (f := fun j => (match (e :: rest)[j]? with | none => (0 : ℝ) | some e => e.weight)) (s := Finset.range i)
      (fun j hj => hw j (by have := Finset.mem_range.1 hj; omega)) (Finset.mem_range.2 hpos)
    simp only [List.getElem?_cons_zero] at this
    linarith

theorem dart_first {S : PoolSurface (Nat → ℝ)} {level : Nat} {G e A B} {rest : List (PoolEntry ℝ)} (h : Piece G S level e A B) (hr : ∀ x ∈ rest, 0 ≤ x.weight) :
    sampleActiveEdge S level (e :: rest) (poolTable (e :: rest)) 0 0 = some (A, e.parent) := by
  unfold sampleActiveEdge
  rw [pick_first h.weight_pos hr]
  simp only [List.getElem?_cons_zero, h.1, zero_mul, add_zero]

theorem coveredEdge_some {E : EdgeSetup} (hE : E.Ok) {t : STree} (ht : SphereTree t.store t.links) (A B : Nat → ℝ) : ∃ b, coveredEdge t E.corner E.L E.ratio A B = some b := by
  obtain ⟨b, eb, -⟩ := C25_edge_covered E.corner.store E.corner.links hE.corner E.L 0 hE.L0 hE.L1 le_rfl one_pos A B
  obtain ⟨c, ec, -⟩ := C25_edge_covered t.store t.links ht E.L E.ratio hE.L0 hE.L1 hE.ratio0 hE.ratio1 A B
  unfold coveredEdge
  rw [eb]
  cases b with
  | true => exact ⟨true, rfl⟩
  | false => exact ⟨c, ec⟩

theorem halves {S : PoolSurface (Nat → ℝ)} {level : Nat} {G e A B} (hG : ∀ X Y, G X → G Y → G (midpoint3 X Y)) (h : Piece G S level e A B) :
    ∃ e0 e1, refineEdge (distance 3) level e ⟨A, B, midpoint3 A B⟩ = some [e0, e1] ∧ Piece G S (level + 1) e0 A (midpoint3 A B) ∧ Piece G S (level + 1) e1 (midpoint3 A B) B := by
  obtain ⟨h1, h2, h3, h4, -, h5, h6⟩ := h
  obtain ⟨A', B', e0, e1, ek, er, hx⟩ := C33_edge_codes midpoint3 (distance 3) S level e _ h1
  simp only [Corners3.mk.injEq] at ek
  obtain ⟨rfl, rfl, -⟩ := ek
  obtain ⟨-, w0, d0⟩ := hx (e0, A, midpoint3 A B) (by simp)
  obtain ⟨-, w1, d1⟩ := hx (e1, midpoint3 A B, B) (by simp)
  have hmid : midpoint3 A B 0 = 0.5 * (A 0 + B 0) := rfl
  exact ⟨e0, e1, er, ⟨d0, h2, by rw [hmid]; linarith, by rw [hmid]; linarith, w0, h5, hG _ _ h5 h6⟩, ⟨d1, by rw [hmid]; linarith, by rw [hmid]; linarith, h4, w1, hG _ _ h5 h6, h6⟩⟩

theorem refine_pieces {E : EdgeSetup} (hE : E.Ok) {t : STree} (ht : SphereTree t.store t.links) {G : (Nat → ℝ) → Prop} (hG : ∀ X Y, G X → G Y → G (midpoint3 X Y)) {level : Nat} (l : List (PoolEntry ℝ))
    (hl : ∀ e ∈ l, ∃ A B, Piece G E.S level e A B) :
    ∃ new, refineSeq (uncoveredEdges midpoint3 (distance 3) (coveredEdge t E.corner E.L E.ratio) E.S level) l = some new ∧ ∀ e ∈ new, ∃ A B, Piece G E.S (level + 1) e A B := by
  induction l with
  | nil => exact ⟨[], rfl, by simp⟩
  | cons e l ih =>
    obtain ⟨new, en, hn⟩ := ih fun x hx => hl x (by simp [hx])
    obtain ⟨A, B, hp⟩ := hl e (by simp)
    obtain ⟨b, eb⟩ := coveredEdge_some hE ht A B
    obtain ⟨e0, e1, er, p0, p1⟩ := halves hG hp
    rw [refineSeq, en]
    unfold uncoveredEdges
    simp only [hp.1, eb]
    cases b with
    | true => exact ⟨new, rfl, hn⟩
    | false =>
      simp only [er]
      refine ⟨_, rfl, fun x hx => ?_⟩
      simp only [List.cons_append, List.nil_append, List.mem_cons] at hx
      rcases hx with rfl | rfl | hx
      · exact ⟨_, _, p0⟩
      · exact ⟨_, _, p1⟩
      · exact hn x hx

theorem refineSeq_append {α β : Type} (f : α → Option (List β)) (a b : List α) {x y : List β} (ha : refineSeq f a = some x) (hb : refineSeq f b = some y) : refineSeq f (a ++ b) = some (x ++ y) := by
  induction a generalizing x with
  | nil => obtain rfl := Option.some.inj ha; exact hb
  | cons e a ih =>
    rw [refineSeq] at ha
    split at ha
    · next l r e1 e2 =>
      obtain rfl := Option.some.inj ha
      rw [List.cons_append, refineSeq, e1, ih e2]
      simp
    · simp at ha

/-- With the numbers zero every dart is the first end of the first piece. -/
theorem stuck {E : EdgeSetup} (hE : E.Ok) (hU : E.U = fun _ => 0) {t : SmartTree ℝ} (ht : SphereTree t.spheres t.links) {G : (Nat → ℝ) → Prop} (hG : ∀ X Y, G X → G Y → G (midpoint3 X Y))
    (hcov : ∀ r : EdgeRun, r.tree = t → ∀ x, G x → dartCovered E r x = some true)
    (hopen : ∀ A B, 0 ≤ A 0 → B 0 ≤ 1 → A 0 < B 0 → ¬ G B → coveredEdge t.asSTree E.corner E.L E.ratio A B = some false) (fuel : Nat) :
    ∀ (level : Nat) (pre post : List (PoolEntry ℝ)) (s : PoolEntry ℝ) (misses : Nat) (r : EdgeRun), r.tree = t → (∀ e ∈ pre, ∃ A B, Piece G E.S level e A B) →
      (∃ A B, Piece (fun _ => True) E.S level s A B ∧ G A ∧ ¬ G B) → (∀ e ∈ post, ∃ A B, Piece (fun _ => True) E.S level e A B) →
      edgeMps E fuel level (pre ++ s :: post) misses r = some none := by
  induction fuel with
  | zero => intros; rfl
  | succ fuel ih =>
    intro level pre post s misses r hr hpre hs hpost
    have hdart : edgeDart E level (pre ++ s :: post) r = some ({ r with pos := r.pos + 2 }, false) := by
      have hpos : ∀ x ∈ s :: post, 0 ≤ x.weight := by
        intro x hx
        rcases List.mem_cons.1 hx with rfl | hx
        · obtain ⟨A, B, h, -⟩ := hs; exact h.weight_pos.le
        · obtain ⟨A, B, h⟩ := hpost x hx; exact h.weight_pos.le
      obtain ⟨e, rest, A, el, hsam, hGA⟩ : ∃ (e : PoolEntry ℝ) (rest : List (PoolEntry ℝ)) (A : Nat → ℝ), pre ++ s :: post = e :: rest ∧
          sampleActiveEdge E.S level (e :: rest) (poolTable (e :: rest)) 0 0 = some (A, e.parent) ∧ G A := by
        cases pre with
        | nil =>
          obtain ⟨A, B, h, hA, -⟩ := hs
          exact ⟨s, post, A, rfl, dart_first h fun x hx => hpos x (by simp [hx]), hA⟩
        | cons e pre =>
          obtain ⟨A, B, h⟩ := hpre e (by simp)
          refine ⟨e, pre ++ s :: post, A, rfl, dart_first h fun x hx => ?_, h.2.2.2.2.2.1⟩
          rcases List.mem_append.1 hx with hx | hx
          · obtain ⟨A', B', h'⟩ := hpre x (by simp [hx]); exact h'.weight_pos.le
          · exact hpos x hx
      unfold edgeDart
      rw [el, hU]
      simp only [hsam, hcov r hr A hGA]
    rw [edgeMps, hdart]
    simp only [Bool.false_eq_true, if_false]
    by_cases hmiss : misses + 1 = 100
    · rw [if_pos hmiss]
      obtain ⟨A, B, hp, hA, hB⟩ := hs
      obtain ⟨e0, e1, er, p0, p1⟩ := halves (G := fun _ => True) (fun _ _ _ _ => trivial) hp
      obtain ⟨pre', epre, hpre'⟩ := refine_pieces hE (t := t.asSTree) ht hG pre hpre
      obtain ⟨post', epost, hpost'⟩ := refine_pieces hE (t := t.asSTree) ht (G := fun _ => True) (fun _ _ _ _ => trivial) post hpost
      have hs1 : refineSeq (uncoveredEdges midpoint3 (distance 3) (coveredEdge t.asSTree E.corner E.L E.ratio) E.S level) (s :: post) = some (e0 :: e1 :: post') := by
        rw [refineSeq, epost]
        unfold uncoveredEdges
        simp only [hp.1, hopen A B hp.2.1 hp.2.2.2.1 hp.2.2.1 hB, er]
        rfl
      have hall := refineSeq_append _ pre (s :: post) epre hs1
      rw [show ({ r with pos := r.pos + 2 } : EdgeRun).tree.asSTree = t.asSTree by rw [← hr], hall]
      simp only
      rw [if_neg (by simp)]
      by_cases hM : G (midpoint3 A B)
      · have := ih (level + 1) (pre' ++ [e0]) post' e1 0 { r with pos := r.pos + 2 } hr (fun e he => ?_) ⟨_, _, p1, hM, hB⟩ hpost'
        · simpa using this
        · rcases List.mem_append.1 he with he | he
          · exact hpre' e he
          · obtain rfl := List.mem_singleton.1 he
            exact ⟨_, _, p0.1, p0.2.1, p0.2.2.1, p0.2.2.2.1, p0.2.2.2.2.1, hA, hM⟩
      · refine ih (level + 1) pre' (e1 :: post') e0 0 { r with pos := r.pos + 2 } hr hpre' ⟨_, _, p0, hA, hM⟩ fun e he => ?_
        rcases List.mem_cons.1 he with rfl | he
        · exact ⟨_, _, p1⟩
        · exact hpost' e he
    · rw [if_neg hmiss]
      exact ih level pre post s (misses + 1) _ hr hpre hs hpost

/-- The coverage test with one sphere. -/
theorem one_sphere {P : PointStore ℝ} {ln : Links} (h : SphereTree P ln) (hn : P.num = 1) {L α : ℝ} (hL0 : 0 ≤ L) (hL1 : L < 1) (hb : (coverBeta α + 1e-8) * P.pts 0 3 + 1e-8 ≤ P.pts 0 3) {x : Nat → ℝ}
    (hx : euclid 3 x (P.pts 0) < (coverBeta α + 1e-8) * P.pts 0 3 + 1e-8) : pointCovered P ln L α x = some true := by
  obtain ⟨c, ec, hc⟩ := closestSphere_spec h x
  obtain rfl : c = 0 := by omega
  have hr0 := h.nonneg 0 hc
  have hd0 := euclid_nonneg 3 x (P.pts 0)
  have h1L : 0 < 1 - L := by linarith
  obtain ⟨l, el, -, -, hl⟩ := spheresNear_spec h x (R := (P.pts 0 3 + L * euclid 3 x (P.pts 0)) / (1 - L)) (div_nonneg (add_nonneg hr0 (mul_nonneg hL0 hd0)) h1L.le)
  have hm := hl 0 hc (by rw [lt_div_iff₀ h1L]; nlinarith)
  unfold pointCovered
  rw [if_neg (by omega), ec]
  simp only [h.radius, el, Option.some.injEq]
  rw [List.any_eq_true]
  refine ⟨0, hm, ?_⟩
  simp only [decide_eq_true_eq, inCover, distance_eq, h.radius]
  exact hx

end Unlucky

open Unlucky in
/-- **C112, the random numbers matter.** The rounds are bounded but a sampling pass is not: on an edge of length one with corner spheres far away and all random numbers zero, every dart after the first falls
on a point that is covered, and the function never returns. -/
theorem C112_unlucky_never_ends : ∃ (E : EdgeSetup) (m : ℝ), E.Ok ∧ EdgeFloor E m ∧ EdgeOpen E ∧ ∀ mps fuel, edgeSpheres E mps fuel = some none := by
  obtain ⟨C, ln, hC, hn, hp⟩ := SphereTree.exists [mkSphere 100 0 0 1] (by simp) (by simp [mkSphere])
  have hn : C.num = 1 := hn
  have hp0 : C.pts 0 = mkSphere 100 0 0 1 := hp 0 (by simp)
  have hE : (setup ⟨C, ln⟩).Ok := by
    refine ⟨fun f hf i hi => hi, Nat.one_pos, hC, ?_, ?_, ?_, ?_, ?_, ?_, fun k => ⟨?_, ?_⟩, fun x => ⟨_, rfl, WithTop.coe_le_coe.2 ?_⟩, fun x => ⟨⊤, rfl, le_top⟩, fun x => ⟨⊤, rfl, le_top⟩⟩ <;>
      norm_num [setup]
  have hP0 : (setup ⟨C, ln⟩).S.point ((setup ⟨C, ln⟩).S.corner 0 0) = mkSphere 0 0 0 0 := by simp [setup]
  have hP1 : (setup ⟨C, ln⟩).S.point ((setup ⟨C, ln⟩).S.corner 0 1) = mkSphere 1 0 0 0 := by simp [setup]
  set E := setup ⟨C, ln⟩ with hEdef
  have hcorner : ∀ s, s < E.corner.store.num → E.corner.store.pts s = mkSphere 100 0 0 1 := fun s hs => by
    have hs : s < C.num := hs
    obtain rfl : s = 0 := by omega
    exact hp0
  have h3 : mkSphere 100 0 0 1 3 = 1 := by simp [mkSphere]
  have hfar : ∀ x : Nat → ℝ, x 0 ≤ 1 → 99 ≤ euclid 3 x (mkSphere 100 0 0 1) := fun x hx => by
    have := coord_le x (mkSphere 100 0 0 1)
    have h0 : mkSphere 100 0 0 1 0 = 100 := by simp [mkSphere]
    rw [h0, abs_of_neg (by linarith)] at this
    linarith
  have hx0 : InSegment (mkSphere 0 0 0 0) (mkSphere 1 0 0 0) (mkSphere 0 0 0 0) := ⟨1, 0, by norm_num, le_rfl, by norm_num, fun d => by ring⟩
  have hseg : ∀ x, InSegment (mkSphere 0 0 0 0) (mkSphere 1 0 0 0) x → x 0 ≤ 1 := fun x hx => by
    obtain ⟨u, v, hu, hv, h1, ex⟩ := hx
    have : x 0 = v := by rw [ex]; simp [mkSphere]
    linarith
  have hm : EdgeFloor E (1 / 10) := by
    refine ⟨by norm_num, by norm_num [hEdef, setup], fun k hk => ?_, fun f hf x hx _ => ⟨fun s hs => ?_, fun s hs => ?_, fun s hs => ?_⟩, fun f hf _ _ _ g hg hne => ?_⟩
    · rw [hcorner k hk, h3]; norm_num
    · obtain rfl := Option.some.inj (show some ((1 : ℝ) : WithTop ℝ) = some s from hs)
      exact le_scaleSz fun a ha => by rw [← WithTop.coe_injective ha]; norm_num
    · obtain rfl := Option.some.inj (show some (⊤ : WithTop ℝ) = some s from hs)
      exact le_top
    · obtain rfl := Option.some.inj (show some (⊤ : WithTop ℝ) = some s from hs)
      exact le_top
    · have hf : f < 1 := hf
      have hg : g < 1 := hg
      omega
  refine ⟨E, 1 / 10, hE, hm, ⟨0, Nat.one_pos, mkSphere 0 0 0 0, by rw [hP0, hP1]; exact hx0, ?_⟩, fun mps fuel => ?_⟩
  · rintro ⟨s, hs, hd⟩
    rw [hcorner s hs, h3] at hd
    have := hfar _ (hseg _ hx0)
    norm_num at hd
    linarith
  cases fuel with
  | zero => rfl
  | succ fuel =>
  cases mps with
  | zero =>
    obtain ⟨pool, ep, -⟩ := initialEdges_spec (distance 3) E.S hE.valid E.S.numFaces le_rfl
    rw [edgeSpheres, edgeSphereLoop]
    simp only [ep, edgeMps]
  | succ mps =>
  obtain ⟨pool, ep, hlen, hpool⟩ := C33_edge_start midpoint3 (distance 3) E.S (fun e i he hi => hE.valid e he i hi) E.S.numFaces le_rfl
  obtain ⟨p, A, B, hp1, rfl, rfl, hpar, hw, hdec⟩ := hpool 0 Nat.one_pos
  rw [hP0, hP1] at hw hdec
  have hlen : pool.length = 1 := hlen
  obtain rfl : pool = [p] := by
    match pool, hlen with
    | [q], _ => simp only [List.getElem?_cons_zero, Option.some.injEq] at hp1; rw [hp1]
  have hpiece : Piece (fun _ => True) E.S 0 p (mkSphere 0 0 0 0) (mkSphere 1 0 0 0) := ⟨hdec, by simp [mkSphere], by simp [mkSphere], by simp [mkSphere], hw, trivial, trivial⟩
  set r0 : EdgeRun := ⟨SmartTree.empty (fun _ _ => 0) id id, [], none, 0⟩ with hr0
  have hok0 : EdgeRunOk E r0 := edgeRunOk_empty E
  have hsam := dart_first (rest := []) hpiece (by simp)
  have hcov : dartCovered E r0 (mkSphere 0 0 0 0) = some false := by
    obtain ⟨b, eb, hb, -⟩ := C24_point_covered E.corner.store E.corner.links hE.corner E.L 0 hE.L0 hE.L1 le_rfl one_pos (mkSphere 0 0 0 0)
    have hbf : b = false := by
      by_contra h
      obtain ⟨s, hs, hd⟩ := hb (by simpa using h)
      rw [hcorner s hs, h3] at hd
      have := hfar _ (hseg _ hx0)
      norm_num at hd
      linarith
    unfold dartCovered
    rw [eb, hbf]
    simp only
    unfold pointCovered
    exact if_pos rfl
  obtain ⟨ρ, eρ, hρ0, hρ⟩ := edgeRadius_spec hE (hok0.at_pos 2) (mkSphere 0 0 0 0)
  have hρ1 : 4 / 10 ≤ ρ := by
    refine le_edgeRadius hE (by show 0 ≤ 1; omega) eρ rfl (fun s hs => ?_) (fun s hs => ?_) (fun k hk => ?_) (by norm_num [hEdef, setup])
    · obtain rfl := Option.some.inj (show some ((1 : ℝ) : WithTop ℝ) = some s from hs)
      exact le_scaleSz fun a ha => by rw [← WithTop.coe_injective ha]; norm_num
    · obtain rfl := Option.some.inj (show some (⊤ : WithTop ℝ) = some s from hs)
      exact le_top
    · rw [hcorner k hk]
      linarith [hfar _ (hseg _ hx0)]
  have hρ2 : ρ ≤ 4 / 10 := by
    have := hρ.surf 1 rfl
    rw [show E.rmin = 0 from rfl] at this
    norm_num at this
    linarith
  obtain ⟨t, et, ht, hcap, hnum, hold, hnew⟩ := SmartTree.add_sphere (hok0.at_pos 2).wf (hok0.at_pos 2).cap E.rb (upd (mkSphere 0 0 0 0) 3 ρ) (by simpa [upd] using hρ0)
  have hnum : t.num = 1 := hnum
  have hnew : t.pts 0 = upd (mkSphere 0 0 0 0) 3 ρ := hnew
  have ht3 : t.pts 0 3 = ρ := by rw [hnew]; simp [upd]
  have hdart : edgeDart E 0 [p] r0 = some (⟨t, [p.parent], some ρ, 2⟩, true) := by
    unfold edgeDart
    rw [show E.U r0.pos = 0 from rfl, show E.U (r0.pos + 1) = 0 from rfl, hsam]
    simp only [hcov]
    unfold storeEdgeSphere
    rw [eρ]
    simp only [et]
    rfl
  have hβ : coverBeta (1 / 2) = Real.sqrt (1 - (1 / 2) ^ 2) := by unfold coverBeta; rw [if_pos (by norm_num), pow_two]
  have hβ0 := Real.sqrt_nonneg (1 - (1 / 2 : ℝ) ^ 2)
  have hβ1 : Real.sqrt (1 - (1 / 2 : ℝ) ^ 2) ≤ 9 / 10 := Real.sqrt_le_iff.2 ⟨by norm_num, by norm_num⟩
  let G : (Nat → ℝ) → Prop := fun x => euclid 3 x (t.pts 0) < (Real.sqrt (1 - (1 / 2) ^ 2) + 1e-8) * t.pts 0 3 + 1e-8
  have hG : ∀ X Y, G X → G Y → G (midpoint3 X Y) := fun X Y hX hY => by
    have := euclid_convex2 3 X Y (t.pts 0) (a := 1 / 2) (b := 1 / 2) (by norm_num) (by norm_num) (by norm_num) hX hY
    refine lt_of_eq_of_lt (euclid_congr (fun d _ => ?_) (fun _ _ => rfl)) this
    unfold midpoint3; ring
  have hstuck : edgeMps E mps 0 [p] 0 ⟨t, [p.parent], some ρ, 2⟩ = some none := by
    refine stuck hE rfl ht hG (fun r hr x hx => ?_) (fun X Y hX hY hXY hYn => ?_) mps 0 [] [] p 0 _ rfl (by simp) ⟨_, _, hpiece, ?_, ?_⟩ (by simp)
    · obtain ⟨b, eb, -⟩ := C24_point_covered E.corner.store E.corner.links hE.corner E.L 0 hE.L0 hE.L1 le_rfl one_pos x
      have h1 : pointCovered t.spheres t.links E.L (1 / 2) x = some true := by
        refine one_sphere ht hnum hE.L0 hE.L1 ?_ ?_
        · show (coverBeta (1 / 2) + 1e-8) * t.pts 0 3 + 1e-8 ≤ t.pts 0 3
          rw [hβ, ht3]; nlinarith
        · rw [hβ]; exact hx
      unfold dartCovered
      rw [eb, hr]
      cases b with
      | true => rfl
      | false => exact h1
    · obtain ⟨b, eb, hb, -⟩ := C25_edge_covered E.corner.store E.corner.links hE.corner E.L 0 hE.L0 hE.L1 le_rfl one_pos X Y
      obtain ⟨c, ec, hc, -⟩ := C25_edge_covered t.spheres t.links ht E.L E.ratio hE.L0 hE.L1 hE.ratio0 hE.ratio1 X Y
      have hbf : b = false := by
        by_contra h
        obtain ⟨s, hs, hd⟩ := hb (by simpa using h)
        have hd := hd 0 1 le_rfl zero_le_one (by norm_num)
        rw [hcorner s hs, h3] at hd
        have := hfar (fun d => 0 * X d + 1 * Y d) (by simpa using hY)
        norm_num at hd
        norm_num at this
        linarith
      have hcf : c = false := by
        by_contra h
        obtain ⟨s, hs, hd⟩ := hc (by simpa using h)
        have hs : s < t.num := hs
        obtain rfl : s = 0 := by omega
        have hd := hd 0 1 le_rfl zero_le_one (by norm_num)
        simp only [zero_mul, one_mul, zero_add] at hd
        exact hYn hd
      unfold coveredEdge
      rw [eb, hbf]
      simp only
      rw [← hcf]; exact ec
    · show euclid 3 (mkSphere 0 0 0 0) (t.pts 0) < _
      have h0 : euclid 3 (mkSphere 0 0 0 0) (t.pts 0) = 0 := by
        refine (euclid_congr (fun _ _ => rfl) fun d hd => ?_).trans (euclid_self 3 (mkSphere 0 0 0 0))
        rw [hnew]; simp [upd, show d ≠ 3 by omega]
      rw [h0, ht3]; nlinarith
    · show ¬ euclid 3 (mkSphere 1 0 0 0) (t.pts 0) < _
      have := coord_le (mkSphere 1 0 0 0) (t.pts 0)
      have h1 : mkSphere 1 0 0 0 0 = 1 := by simp [mkSphere]
      have h2 : t.pts 0 0 = 0 := by rw [hnew]; simp [upd, mkSphere]
      rw [h1, h2, sub_zero, abs_one] at this
      rw [not_lt, ht3]
      nlinarith
  rw [edgeSpheres, edgeSphereLoop]
  simp only [ep, edgeMps]
  rw [hdart]
  simp only [if_true]
  rw [if_neg (by omega), hstuck]

end VoroCrust
