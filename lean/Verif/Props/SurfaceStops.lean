import Verif.Props.EdgeStops
import Verif.Props.SurfaceSphereCases

/-! C113: the surface spheres are spread out, and the rounds on the surface go on only while radii fall. -/

namespace VoroCrust

/-! ## New spheres keep their distance -/

/-- `t'` has the spheres of `t` first, unchanged. -/
structure TreeExt (t t' : SmartTree ℝ) : Prop where
  num : t.num ≤ t'.num
  old : ∀ i, i < t.num → t'.pts i = t.pts i
  same : t'.num = t.num → t' = t

theorem TreeExt.rfl' (t : SmartTree ℝ) : TreeExt t t := ⟨le_rfl, fun _ _ => rfl, fun _ => rfl⟩

theorem TreeExt.trans' {a b c : SmartTree ℝ} (h1 : TreeExt a b) (h2 : TreeExt b c) : TreeExt a c :=
  ⟨h1.num.trans h2.num, fun i hi => (h2.old i (hi.trans_le h1.num)).trans (h1.old i hi), fun h => by
    have := h1.num
    have := h2.num
    rw [h2.same (by omega), h1.same (by omega)]⟩

/-- All radii are at least `m`. -/
def RadiiAtLeast (m : ℝ) (t : SmartTree ℝ) : Prop := ∀ i, i < t.num → m ≤ t.pts i 3

/-- All centres are at least `δ` apart. -/
def Apart (δ : ℝ) (t : SmartTree ℝ) : Prop := ∀ i j, i < j → j < t.num → δ ≤ euclid 3 (t.pts i) (t.pts j)

theorem RadiiAtLeast.before {m : ℝ} {t t' : SmartTree ℝ} (h : RadiiAtLeast m t') (e : TreeExt t t') : RadiiAtLeast m t := fun i hi => by
  rw [← e.old i hi]; exact h i (hi.trans_le e.num)

/-- What the tests of a dart give: it is away from the spheres of the tree if these are not too small. -/
def AwayFrom (β m : ℝ) (t : SmartTree ℝ) (x : Nat → ℝ) : Prop := RadiiAtLeast m t → ∀ s, s < t.num → β * m ≤ euclid 3 x (t.pts s)

theorem surfCovered_away {E : SurfSetup} (hE : E.Ok) {r : SurfRun} (hr : r.tree.asSTree.Wf) {x : Nat → ℝ} (h : surfCovered E r x = some false) (m : ℝ) : AwayFrom (coverBeta E.ratio) m r.tree x := by
  intro hm s hs
  have ht : SphereTree r.tree.spheres r.tree.links := hr.resolve_left (by show r.tree.num ≠ 0; omega)
  unfold surfCovered at h
  split at h
  · simp at h
  · simp at h
  · split at h
    · simp at h
    · simp at h
    · obtain ⟨c, hc, h1, h2⟩ := pointCovered_far ht hE.L0 hE.L1 hE.ratio0 hE.ratio1 h
      have hβ := (coverBeta_bounds hE.ratio0 hE.ratio1).2.2.2
      exact (mul_le_mul_of_nonneg_left (hm c hc) hβ).trans (h1.trans (h2 s hs))

theorem drawDarts_away {E : SurfSetup} (hE : E.Ok) {r : SurfRun} (hr : r.tree.asSTree.Wf) (level : Nat) (pool : List (PoolEntry ℝ)) (m : ℝ) (n : Nat) :
    ∀ ds, drawDarts E level pool r n = some ds → ∀ d ∈ ds, d.covered = false → AwayFrom (coverBeta E.ratio) m r.tree d.sphere := by
  induction n with
  | zero => intro ds h; rw [← Option.some.inj h]; simp
  | succ n ih =>
    intro ds h
    rw [drawDarts] at h
    split at h
    · simp at h
    · next ds0 e0 =>
      split at h
      · simp at h
      · next x f _ =>
        split at h
        · simp at h
        · next b eb =>
          rw [← Option.some.inj h]
          intro d hd hc
          rcases List.mem_append.1 hd with hd | hd
          · exact ih ds0 e0 d hd hc
          · rw [List.mem_singleton.1 hd] at hc ⊢
            have hc : b = false := hc
            rw [hc] at eb
            exact surfCovered_away hE hr eb m

/-- Of two darts that are both kept, the later one is not covered by the earlier one. -/
def KeptApart (β : ℝ) (p q : Draw) : Prop := p.covered = false → q.covered = false → β * p.sphere 3 ≤ euclid 3 q.sphere p.sphere

theorem hitBy_away {E : SurfSetup} {prev : List Draw} (hp : ∀ p ∈ prev, p.covered = false → 0 ≤ p.sphere 3) {x : Nat → ℝ} (h : ¬ hitBy E prev x = true) :
    ∀ p ∈ prev, p.covered = false → coverBeta E.ratio * p.sphere 3 ≤ euclid 3 x p.sphere := by
  intro p hpm hc
  have h : hitBy E prev x = false := by simpa using h
  unfold hitBy at h
  rw [List.any_eq_false] at h
  have := h p hpm
  simp only [hc, Bool.not_false, Bool.true_and, pointCoveredBy, decide_eq_true_eq, inCover, distance_eq, not_lt] at this
  have := hp p hpm hc
  nlinarith

theorem sizeDarts_apart {E : SurfSetup} (hE : E.Ok) {m : ℝ} {t : SmartTree ℝ} (ds : List Draw) : ∀ (prev : List Draw) (r : SurfRun) (qs : List Draw) (r' : SurfRun), SurfRunOk E r → (∀ d ∈ ds, DrawOk E d) →
    prev.length + ds.length = E.T →
    (∀ d ∈ prev, d.covered = false → 0 ≤ d.sphere 3) →
    (∀ d ∈ prev, d.covered = false → AwayFrom (coverBeta E.ratio) m t d.sphere) → (∀ d ∈ ds, d.covered = false → AwayFrom (coverBeta E.ratio) m t d.sphere) → prev.Pairwise (KeptApart (coverBeta E.ratio)) →
    sizeDarts E prev ds r = some (qs, r') → (∀ d ∈ qs, d.covered = false → AwayFrom (coverBeta E.ratio) m t d.sphere) ∧ qs.Pairwise (KeptApart (coverBeta E.ratio)) ∧ r'.tree = r.tree := by
  induction ds with
  | nil =>
    intro prev r qs r' _ _ _ _ ha _ hp h
    rw [sizeDarts] at h
    obtain ⟨rfl, rfl⟩ := Prod.mk.inj (Option.some.inj h)
    exact ⟨ha, hp, rfl⟩
  | cons d ds ih =>
    intro prev r qs r' hr hds hlen h0 ha hb hp h
    have happ : ∀ (Q : Draw → Prop) d', (∀ x ∈ prev, Q x) → Q d' → ∀ x ∈ prev ++ [d'], Q x := fun Q d' h1 h2 x hx => by
      rcases List.mem_append.1 hx with hx | hx
      · exact h1 x hx
      · rw [List.mem_singleton.1 hx]; exact h2
    have hlen' : ∀ d', (prev ++ [d']).length + ds.length = E.T := fun d' => by simp at hlen ⊢; omega
    have hpair : ∀ d', (∀ p ∈ prev, KeptApart (coverBeta E.ratio) p d') → (prev ++ [d']).Pairwise (KeptApart (coverBeta E.ratio)) := fun d' h1 =>
      List.pairwise_append.2 ⟨hp, List.pairwise_singleton _ _, fun p hpm q hq => by rw [List.mem_singleton.1 hq]; exact h1 p hpm⟩
    have hrest : ∀ x ∈ ds, x.covered = false → AwayFrom (coverBeta E.ratio) m t x.sphere := fun x hx => hb x (by simp [hx])
    have hds' : ∀ x ∈ ds, DrawOk E x := fun x hx => hds x (by simp [hx])
    rw [sizeDarts] at h
    split at h
    · next hc =>
      exact ih _ r qs r' hr hds' (hlen' _) (happ (fun x => x.covered = false → 0 ≤ x.sphere 3) d h0 fun h => by rw [hc] at h; simp at h)
        (happ (fun x => x.covered = false → AwayFrom (coverBeta E.ratio) m t x.sphere) d ha fun h => by rw [hc] at h; simp at h) hrest (hpair d fun p _ _ h => by rw [hc] at h; simp at h) h
    · next hc =>
      have hc' : d.covered = false := by simpa using hc
      split at h
      · refine ih _ r qs r' hr hds' (hlen' _) (happ (fun x => x.covered = false → 0 ≤ x.sphere 3) _ h0 fun h => by simp at h)
          (happ (fun x => x.covered = false → AwayFrom (coverBeta E.ratio) m t x.sphere) _ ha fun h => by simp at h) hrest (hpair _ fun p _ _ h => by simp at h) h
      · next hh =>
        split at h
        · simp at h
        · next ρ eρ =>
          have hp0 : E.T = 1 → prev.length = 0 := fun hT => by simp at hlen; omega
          obtain ⟨hρ, -⟩ := (surfRadius_spec hE hr.wf hr.stale (t := prev.length) (fun hT hn => by rw [hp0 hT]; exact hr.single hT hn) d.sphere (hds d (by simp)).1).result eρ
          have heu : ∀ y : Nat → ℝ, euclid 3 (upd d.sphere 3 ρ) y = euclid 3 d.sphere y := fun y => euclid_congr (fun k hk => by simp [upd, show k ≠ 3 by omega]) fun _ _ => rfl
          have hr' : SurfRunOk E { r with stale := upd r.stale prev.length (some ρ) } := by
            refine ⟨hr.wf, hr.cap, hr.len, fun t ρ' ht => ?_, fun hT _ => ⟨ρ, ?_⟩, hr.on⟩
            · have ht : upd r.stale prev.length (some ρ) t = some ρ' := ht
              unfold upd at ht
              split at ht
              · rw [← Option.some.inj ht]; exact hρ
              · exact hr.stale t ρ' ht
            · show upd r.stale prev.length (some ρ) 0 = some ρ
              rw [hp0 hT]; exact if_pos rfl
          refine ih (prev ++ [{ d with sphere := upd d.sphere 3 ρ }]) { r with stale := upd r.stale prev.length (some ρ) } qs r' hr' hds' (hlen' _)
            (happ (fun x => x.covered = false → 0 ≤ x.sphere 3) { d with sphere := upd d.sphere 3 ρ } h0 fun _ => by simpa [upd] using hρ)
            (happ (fun x => x.covered = false → AwayFrom (coverBeta E.ratio) m t x.sphere) { d with sphere := upd d.sphere 3 ρ } ha fun _ => ?_) hrest (hpair _ fun p hpm h1 _ => ?_) h
          · intro hm s hs
            show _ ≤ euclid 3 (upd d.sphere 3 ρ) _
            rw [heu]; exact hb d (by simp) hc' hm s hs
          · show _ ≤ euclid 3 (upd d.sphere 3 ρ) _
            rw [heu]; exact hitBy_away h0 hh p hpm h1

theorem addDarts_apart {E : SurfSetup} (hE : E.Ok) {m : ℝ} (ds : List Draw) : ∀ (r : SurfRun) (n : Nat) (r' : SurfRun) (n' : Nat), SurfRunOk E r → (∀ d ∈ ds, SizedOk E d) →
    (E.T = 1 → (∃ d ∈ ds, d.covered = false) → ∃ ρ, r.stale 0 = some ρ) →
    (∀ d ∈ ds, d.covered = false → AwayFrom (coverBeta E.ratio) m r.tree d.sphere) → ds.Pairwise (KeptApart (coverBeta E.ratio)) →
    addDarts E ds r n = some (r', n') → TreeExt r.tree r'.tree ∧ (RadiiAtLeast m r'.tree → Apart (coverBeta E.ratio * m) r.tree → Apart (coverBeta E.ratio * m) r'.tree) := by
  induction ds with
  | nil =>
    intro r n r' n' _ _ _ _ _ h
    rw [addDarts] at h
    obtain ⟨rfl, rfl⟩ := Prod.mk.inj (Option.some.inj h)
    exact ⟨.rfl' _, fun _ h => h⟩
  | cons d ds ih =>
    intro r n r' n' hr hds hone ha hp h
    obtain ⟨hp1, hp2⟩ := List.pairwise_cons.1 hp
    rw [addDarts] at h
    split at h
    · split at h
      · obtain ⟨rfl, rfl⟩ := Prod.mk.inj (Option.some.inj h)
        exact ⟨.rfl' _, fun _ h => h⟩
      · exact ih r (n + 1) r' n' hr (fun x hx => hds x (by simp [hx])) (fun hT ⟨x, hx, h⟩ => hone hT ⟨x, by simp [hx], h⟩) (fun x hx => ha x (by simp [hx])) hp2 h
    · next hc =>
      have hc' : d.covered = false := by simpa using hc
      obtain ⟨h0, hd⟩ := hds d (by simp) hc'
      have h1 : E.T = 1 → ∃ ρ, r.stale 0 = some ρ := fun hT => hone hT ⟨d, by simp, hc'⟩
      obtain ⟨t, et, ht, -, -⟩ := hr.add h0 hd h1
      obtain ⟨t', et', -, -, hnum, hold, hnew⟩ := SmartTree.add_sphere hr.wf hr.cap E.rb d.sphere h0
      obtain rfl := Option.some.inj (et.symm.trans et')
      rw [et] at h
      simp only at h
      have hext : TreeExt r.tree t := ⟨by omega, hold, fun h => by omega⟩
      have hβ := (coverBeta_bounds hE.ratio0 hE.ratio1).2.2.2
      have hq' : ∀ q ∈ ds, q.covered = false → AwayFrom (coverBeta E.ratio) m t q.sphere := by
        intro q hq hqc hm s hs
        by_cases h' : s < r.tree.num
        · rw [hold s h']; exact ha q (by simp [hq]) hqc (hm.before hext) s h'
        · obtain rfl : s = r.tree.num := by omega
          have := hm r.tree.num (by omega)
          rw [hnew] at this ⊢
          exact (mul_le_mul_of_nonneg_left this hβ).trans (hp1 q hq hc' hqc)
      obtain ⟨i1, i2⟩ := ih { r with tree := t, ids := r.ids ++ [d.face] } 0 r' n' ht (fun x hx => hds x (by simp [hx])) (fun hT _ => h1 hT) hq' hp2 h
      refine ⟨hext.trans' i1, fun hm hap => i2 hm fun i j hij hj => ?_⟩
      have hm1 : RadiiAtLeast m t := hm.before i1
      have hj : j < t.num := hj
      show _ ≤ euclid 3 (t.pts i) (t.pts j)
      by_cases h' : j < r.tree.num
      · rw [hold i (by omega), hold j h']; exact hap i j hij h'
      · obtain rfl : j = r.tree.num := by omega
        rw [hnew, hold i hij, euclid_comm]
        exact ha d (by simp) hc' (hm1.before hext) i hij

theorem surfRound_apart {E : SurfSetup} (hE : E.Ok) {r : SurfRun} (hr : SurfRunOk E r) {level : Nat} {pool : List (PoolEntry ℝ)} (hne : pool ≠ []) (hd : Decodes E.S level pool) {n n' : Nat} {r' : SurfRun}
    (h : surfRound E level pool r n = some (r', n')) (m : ℝ) :
    TreeExt r.tree r'.tree ∧ (RadiiAtLeast m r'.tree → Apart (coverBeta E.ratio * m) r.tree → Apart (coverBeta E.ratio * m) r'.tree) := by
  obtain ⟨ds, e, hl, hds⟩ := drawDarts_spec hE hr.wf level hne hd E.T
  unfold surfRound at h
  simp only [e] at h
  split at h
  · simp at h
  · next qs r1 e1 =>
    obtain ⟨b1, -, -, b4, b5⟩ := (sizeDarts_spec hE ds [] r hr (by simp) hds (by simpa using hl) (fun _ ⟨x, hx, _⟩ => by simp at hx)).result e1
    obtain ⟨a1, a2, a3⟩ := sizeDarts_apart hE (m := m) (t := r.tree) ds [] r qs r1 hr hds (by simpa using hl) (by simp) (by simp) (drawDarts_away hE hr.wf level pool m E.T ds e) List.Pairwise.nil e1
    have := addDarts_apart hE (m := m) qs { r1 with calls := r1.calls + 1 } n r' n' ⟨b4.wf, b4.cap, b4.len, b4.stale, b4.single, b4.on⟩ b1 b5 (by rw [← a3] at a1; exact a1) a2 h
    rw [← a3]
    exact this

theorem surfMps_apart {E : SurfSetup} (hE : E.Ok) (m : ℝ) (fuel : Nat) : ∀ (level : Nat) (pool : List (PoolEntry ℝ)) (misses : Nat) (r r' : SurfRun),
    SurfRunOk E r → pool ≠ [] → Decodes E.S level pool → surfMps E fuel level pool misses r = some (some r') →
    TreeExt r.tree r'.tree ∧ (RadiiAtLeast m r'.tree → Apart (coverBeta E.ratio * m) r.tree → Apart (coverBeta E.ratio * m) r'.tree) := by
  induction fuel with
  | zero => intro level pool misses r r' _ _ _ h; simp [surfMps] at h
  | succ fuel ih =>
    intro level pool misses r r' hr hne hd h
    rw [surfMps] at h
    split at h
    · simp at h
    · next r1 n e1 =>
      obtain ⟨h1, -⟩ := (surfRound_spec hE hr level hne hd misses).result e1
      obtain ⟨x1, x2⟩ := surfRound_apart hE hr hne hd e1 m
      have next : ∀ {level : Nat} {pool : List (PoolEntry ℝ)} {misses : Nat}, pool ≠ [] → Decodes E.S level pool → surfMps E fuel level pool misses r1 = some (some r') →
          TreeExt r.tree r'.tree ∧ (RadiiAtLeast m r'.tree → Apart (coverBeta E.ratio * m) r.tree → Apart (coverBeta E.ratio * m) r'.tree) := fun hne hd h => by
        obtain ⟨y1, y2⟩ := ih _ _ _ r1 r' h1 hne hd h
        exact ⟨x1.trans' y1, fun hm ha => y2 hm (x2 (hm.before y1) ha)⟩
      split at h
      · obtain ⟨new, en, dn, -⟩ := refineSeq_pool area3 E.S level (coveredFace r1.tree.asSTree E.edge E.corner E.L E.ratio)
          (Covered r1.tree.asSTree E.edge E.corner E.ratio)
          (fun A B C => coveredFace_spec r1.tree.asSTree E.edge E.corner h1.wf hE.edge hE.corner E.L E.ratio hE.L0 hE.L1 hE.ratio0 hE.ratio1 A B C) pool hd
        rw [en] at h
        simp only at h
        split at h
        · obtain rfl := Option.some.inj (Option.some.inj h)
          exact ⟨x1, x2⟩
        · next h0 => exact next (fun h' => h0 (by rw [h']; rfl)) dn h
      · exact next hne hd h

theorem surfPatches_apart {E : SurfSetup} (hE : E.Ok) (m : ℝ) (mps : Nat) (ps : List (Nat × List Nat)) : (∀ p ∈ ps, p.2 ≠ [] ∧ ∀ f ∈ p.2, f < E.S.numFaces) → ∀ r r', SurfRunOk E r →
    surfPatches E mps ps r = some (some r') → TreeExt r.tree r'.tree ∧ (RadiiAtLeast m r'.tree → Apart (coverBeta E.ratio * m) r.tree → Apart (coverBeta E.ratio * m) r'.tree) := by
  induction ps with
  | nil =>
    intro _ r r' _ h
    obtain rfl := Option.some.inj (Option.some.inj h)
    exact ⟨.rfl' _, fun _ h => h⟩
  | cons p ps ih =>
    intro hps r r' hr h
    obtain ⟨hne, hf⟩ := hps p (by simp)
    obtain ⟨pool, ep, dp, qp⟩ := initialPool_spec area3 E.S hE.valid p.2 hf
    have hpne : pool ≠ [] := by
      obtain ⟨f, hfm⟩ := List.exists_mem_of_ne_nil _ hne
      rintro rfl
      obtain ⟨e, he, -⟩ := qp f hfm _ (inTriangle_self _ _ _).1
      simp at he
    rw [surfPatches] at h
    simp only [ep] at h
    split at h
    · simp at h
    · simp at h
    · next r1 e1 =>
      obtain ⟨h1, -⟩ := (surfMps_spec hE mps 0 pool 0 r hr hpne dp).result e1 r1 rfl
      obtain ⟨x1, x2⟩ := surfMps_apart hE m mps 0 pool 0 r r1 hr hpne dp e1
      obtain ⟨y1, y2⟩ := ih (fun q hq => hps q (by simp [hq])) r1 r' h1 h
      exact ⟨x1.trans' y1, fun hm ha => y2 hm (x2 (hm.before y1) ha)⟩

/-! ## Every other way to go on shrinks a sphere by five percent -/

theorem resolveIn_drop {E : SurfSetup} (hE : E.Ok) {P : PointStore ℝ} (ln : Links) (cs : List Nat) (sp : Nat) (hsp : cs[(resolveIn E (E.spheres P ln) cs).1]? = some sp) :
    (resolveIn E (E.spheres P ln) cs).2 ≤ 0.95 * P.pts sp 3 := by
  obtain ⟨hlt, -, -⟩ := resolveIn_spec hE ln cs sp hsp
  set Z := E.spheres P ln with hZdef
  unfold resolveIn at hsp ⊢
  simp only at hsp ⊢
  rcases C29_resolve_sliver cs.length (fun l => Z.at (cs.getD l 0) 3) (fun l => decide (Z.S.num ≤ cs.getD l 0)) (E.hm Z cs) E.r0 with ⟨h1, -⟩ | ⟨h1, h2, t, k, hk, h3, -, -⟩
  · rw [h1, List.getElem?_eq_none le_rfl] at hsp
    simp at hsp
  · have hsp' : cs.getD (resolveSliver cs.length (fun l => Z.at (cs.getD l 0) 3) (fun l => decide (Z.S.num ≤ cs.getD l 0)) (E.hm Z cs) E.r0).index 0 = sp := by
      rw [List.getD_eq_getElem?_getD, hsp]; rfl
    have hin := hk.inside
    rw [hsp'] at hin
    unfold SphereSet.at at hin
    rw [if_pos (show sp < Z.S.num from hlt)] at hin
    rw [h3]
    have hin : k ≤ P.pts sp 3 - 1e-10 := hin
    nlinarith

/-- Shrinking slivers shrinks. -/
theorem shrinkSlivers_some (ns : Nat) (ps : List (Nat × ℝ)) : ∀ s : PointStore ℝ × Bool, ps ≠ [] → (∀ p ∈ ps, p.1 < ns) → ∃ p ∈ ps, radius (shrinkSlivers ns ps s).1 p.1 = p.2 := by
  induction ps with
  | nil => intro s h; simp at h
  | cons p ps ih =>
    intro s _ hps
    rw [shrinkSlivers, if_pos (hps p (by simp))]
    rcases eq_or_ne ps [] with rfl | hne
    · refine ⟨p, by simp, ?_⟩
      rw [shrinkSlivers]
      simp only
      rw [radius_setAttr, if_pos rfl]
    · obtain ⟨q, hq, e⟩ := ih (setAttr s.1 p.1 0 p.2, true) hne fun q hq => hps q (by simp [hq])
      exact ⟨q, by simp [hq], e⟩

/-- The first sphere of every seed is a surface sphere. -/
structure SeedsOnSurface (Z : SphereSet) (s : SeedRun) : Prop where
  up : ∀ a ∈ s.up.attr, a.s1 < Z.S.num
  lo : ∀ a ∈ s.lo.attr, a.s1 < Z.S.num

theorem addPair_first {rb : Nat → Nat → Bool} {up lo up' lo' : SeedTree} {u l : Nat → ℝ} {s1 s2 s3 : Nat} (h : addPair rb up lo u l s1 s2 s3 = some (up', lo')) :
    (∀ a ∈ up'.attr, a ∈ up.attr ∨ a.s1 = s1) ∧ ∀ a ∈ lo'.attr, a ∈ lo.attr ∨ a.s1 = s1 := by
  have key : ∀ {t t' : SeedTree} {x : Nat → ℝ} {a : SeedAttr}, addSeed rb t x a = some t' → a.s1 = s1 → ∀ b ∈ t'.attr, b ∈ t.attr ∨ b.s1 = s1 := fun {t t' x a} e ea b hb => by
    unfold addSeed at e
    obtain ⟨_, -, rfl⟩ := Option.map_eq_some_iff.1 e
    rcases List.mem_append.1 hb with hb | hb
    · exact .inl hb
    · rw [List.mem_singleton.1 hb]; exact .inr ea
  unfold addPair at h
  split at h
  · split at h
    · next lo1 up1 e1 e2 =>
      have h := Option.some.inj h
      simp only [Prod.mk.injEq] at h
      obtain ⟨rfl, rfl⟩ := h
      constructor
      · split at e2
        · exact key e2 rfl
        · rw [← Option.some.inj e2]; exact fun a ha => .inl ha
      · split at e1
        · exact key e1 rfl
        · rw [← Option.some.inj e1]; exact fun a ha => .inl ha
    · simp at h
  · simp at h

theorem seedTriple_surface {Z : SphereSet} {L : ℝ} {env : SeedEnv} {t : Nat × Nat × Nat} (h1 : t.1 < Z.S.num) {s s' : SeedRun} (hs : SeedsOnSurface Z s) (h : seedTriple Z L env t s = some s') :
    SeedsOnSurface Z s' := by
  unfold seedTriple at h
  simp only at h
  split at h
  · simp at h
  · split at h
    · simp at h
    · split at h
      · rw [← Option.some.inj h]; exact ⟨hs.up, hs.lo⟩
      · split at h
        · rw [← Option.some.inj h]; exact ⟨hs.up, hs.lo⟩
        · split at h
          · simp at h
          · split at h
            · split at h
              · rw [← Option.some.inj h]; exact ⟨hs.up, hs.lo⟩
              · rw [← Option.some.inj h]; exact ⟨hs.up, hs.lo⟩
            · split at h
              · split at h
                · simp at h
                · next up lo hp =>
                  rw [← Option.some.inj h]
                  obtain ⟨q1, q2⟩ := addPair_first hp
                  exact ⟨fun a ha => (q1 a ha).elim (hs.up a) fun e => by rw [e]; exact h1, fun a ha => (q2 a ha).elim (hs.lo a) fun e => by rw [e]; exact h1⟩
              · rw [← Option.some.inj h]; exact ⟨hs.up, hs.lo⟩

theorem seedTripleLoop_surface {Z : SphereSet} {L : ℝ} {env : SeedEnv} (ts : List (Nat × Nat × Nat)) : (∀ t ∈ ts, t.1 < Z.S.num) →
    ∀ {s s' : SeedRun}, SeedsOnSurface Z s → seedTripleLoop Z L env ts s = some s' → SeedsOnSurface Z s' := by
  induction ts with
  | nil => intro _ s s' hs h; rw [seedTripleLoop] at h; rw [← Option.some.inj h]; exact hs
  | cons t ts ih =>
    intro hts s s' hs h
    rw [seedTripleLoop] at h
    split at h
    · simp at h
    · next s1 e => exact ih (fun x hx => hts x (by simp [hx])) (seedTriple_surface (hts t (by simp)) hs e) h

theorem seedSphereLoop_surface {Z : SphereSet} {L : ℝ} {env : SeedEnv} (is : List Nat) : (∀ i ∈ is, i < Z.S.num) →
    ∀ {s s' : SeedRun}, SeedsOnSurface Z s → seedSphereLoop Z L env is s = some s' → SeedsOnSurface Z s' := by
  induction is with
  | nil => intro _ s s' hs h; rw [seedSphereLoop] at h; rw [← Option.some.inj h]; exact hs
  | cons i is ih =>
    intro his s s' hs h
    rw [seedSphereLoop] at h
    split at h
    · simp at h
    · split at h
      · simp at h
      · next s1 e1 =>
        refine ih (fun x hx => his x (by simp [hx])) (seedTripleLoop_surface _ (fun t ht => ?_) hs e1) h
        obtain ⟨rfl, -⟩ := mem_seedTriples.1 ht
        exact his _ (by simp)

theorem closeSeeds_marks {S : PointStore ℝ} {t : SeedTree} (ht : ∀ a ∈ t.attr, a.s1 < S.num) (is : List Nat) : ∀ s m, closeSeeds S t is s = some m →
    (s.2 = true → ∃ q, q < S.num ∧ s.1 q = true) → m.2 = true → ∃ q, q < S.num ∧ m.1 q = true := by
  induction is with
  | nil => intro s m h hs; rw [closeSeeds] at h; rw [← Option.some.inj h]; exact hs
  | cons i is ih =>
    intro s m h hs
    rw [closeSeeds] at h
    split at h
    · simp at h
    · next a ea =>
      split at h
      · simp at h
      · split at h
        · refine ih _ m h fun _ => ⟨a.s1, ht a (List.mem_of_getElem? ea), ?_⟩
          simp [checkedSpheres, ht a (List.mem_of_getElem? ea)]
        · exact ih s m h hs

/-- If `generate_surface_seeds` reports that a sphere was shrunk, one was shrunk by five percent or more. -/
theorem surfaceSeeds_drop {E : SurfSetup} (hE : E.Ok) {P : PointStore ℝ} {ln : Links} (hP : SphereTree P ln) {env : SeedEnv} (hres : env.resolve = resolveIn E (E.spheres P ln))
    {Q : PointStore ℝ} {up lo : SeedTree} (h : surfaceSeeds (E.spheres P ln) E.L env = some (Q, true, up, lo)) : ∃ i, i < P.num ∧ Q.pts i 3 ≤ 0.95 * P.pts i 3 := by
  obtain ⟨-, hQ, -⟩ := surfaceSeeds_sane hE hP hres h
  set Z := E.spheres P ln with hZdef
  have hZ : Z.Trees := ⟨.inr hP, hE.edge, hE.corner⟩
  unfold surfaceSeeds at h
  split at h
  · simp at h
  · next s es =>
    have hs := seedSphereLoop_sane hZ hE.L0 hE.L1 _ (fun i hi => List.mem_range.1 hi) (⟨by simp [SeedTree.empty], by simp⟩ : SeedSane Z env ⟨none, 0, [], SeedTree.empty, SeedTree.empty⟩) es
    have hf := seedSphereLoop_surface _ (fun i hi => List.mem_range.1 hi) (⟨by simp [SeedTree.empty], by simp [SeedTree.empty]⟩ : SeedsOnSurface Z ⟨none, 0, [], SeedTree.empty, SeedTree.empty⟩) es
    split at h
    · next hne =>
      have h := Option.some.inj h
      simp only [Prod.mk.injEq] at h
      obtain ⟨eQ, -⟩ := h
      have hps : ∀ p ∈ s.slivers, p.1 < P.num ∧ p.2 ≤ 0.95 * P.pts p.1 3 := fun p hp => by
        obtain ⟨cs, h1, h2⟩ := hs.slivers p hp
        rw [hres] at h1 h2
        exact ⟨(resolveIn_spec hE ln cs p.1 h1).1, by rw [h2]; exact resolveIn_drop hE ln cs p.1 h1⟩
      obtain ⟨p, hp, e⟩ := shrinkSlivers_some Z.S.num s.slivers (Z.S, false) hne fun p hp => (hps p hp).1
      rw [eQ, hQ.radius] at e
      exact ⟨p.1, (hps p hp).1, by rw [e]; exact (hps p hp).2⟩
    · split at h
      · simp at h
      · next m1 em1 =>
        split at h
        · simp at h
        · next m2 em2 =>
          split at h
          · next hm2 =>
            have h := Option.some.inj h
            simp only [Prod.mk.injEq] at h
            obtain ⟨eQ, -⟩ := h
            obtain ⟨q, hq, hmk⟩ := closeSeeds_marks hf.lo _ _ _ em2 (closeSeeds_marks hf.up _ _ _ em1 (by simp)) hm2
            have k := (shrinkMarked_spec m2.1 (List.range Z.S.num) List.nodup_range Z.S hP.dim).2 q
            rw [eQ, if_pos ⟨List.mem_range.2 hq, hmk⟩, hQ.radius, show radius Z.S q = P.pts q 3 from hP.radius q] at k
            exact ⟨q, hq, by rw [k]; linarith⟩
          · simp at h

/-- The factors of the validation: one, or at most 0.95. -/
def ShrinkFactors (k : Nat → ℝ) : Prop := ∀ q, k q = 1 ∨ (0 ≤ k q ∧ k q ≤ 0.95)

theorem shrink_factors (ns p : Nat) {k : Nat → ℝ} (h : ShrinkFactors k) : ShrinkFactors (shrink ns p k) := fun q => by
  unfold shrink
  split
  · right
    rcases h q with h | ⟨h1, h2⟩
    · rw [h]; norm_num
    · constructor <;> linarith
  · exact h q

theorem validateEdge_factors (ns c : Nat) (e : Nat × Nat) {s : ValState} (h : ShrinkFactors s.radius) : ShrinkFactors (validateEdge ns c e s).radius := by
  unfold validateEdge
  split
  · exact shrink_factors _ _ (shrink_factors _ _ h)
  · split
    · exact shrink_factors _ _ (shrink_factors _ _ h)
    · exact h

theorem validateEdges_factors (n ns : Nat) (faces : List (List Nat)) (pf : Nat → FaceBuf) (es : List (Nat × Nat)) : ∀ s s', ShrinkFactors s.radius → validateEdges n ns faces pf es s = some s' →
    ShrinkFactors s'.radius := by
  induction es with
  | nil => intro s s' hs h; rw [validateEdges] at h; rw [← Option.some.inj h]; exact hs
  | cons e es ih =>
    intro s s' hs h
    rw [validateEdges] at h
    split at h
    · simp at h
    · exact ih _ _ (validateEdge_factors _ _ _ hs) h

theorem validateFaces_factors (n ns : Nat) (faces : List (List Nat)) (pf : Nat → FaceBuf) (fs : List (List Nat)) : ∀ s s', ShrinkFactors s.radius → validateFaces n ns faces pf fs s = some s' →
    ShrinkFactors s'.radius := by
  induction fs with
  | nil => intro s s' hs h; rw [validateFaces] at h; rw [← Option.some.inj h]; exact hs
  | cons f fs ih =>
    intro s s' hs h
    rw [validateFaces] at h
    split at h
    · simp at h
    · split at h
      · simp at h
      · next s1 e1 => exact ih _ _ (validateEdges_factors n ns faces pf _ _ _ hs e1) h

/-- If the validation finds the surface not watertight, it shrinks a surface sphere by five percent or more. -/
theorem validateSurface_drop (n ns : Nat) (faces : List (List Nat)) (h : TriMesh n faces) (hs : SimpleFaces faces) (r : Nat → ℝ) (hr : ∀ q, q < ns → 0 ≤ r q) {v : ValState}
    (e : validateSurface n ns faces r = some v) (hv : v.tight = false) : ∃ q, q < ns ∧ v.radius q ≤ 0.95 * r q := by
  obtain ⟨s, e1, -, -, h3, -, -⟩ := C22_validation_partial n ns faces h hs (fun _ => 1) fun _ => one_pos
  unfold validateSurface at e e1
  cases hb : buildPointFaces n faces with
  | none => rw [hb] at e; simp at e
  | some pf =>
    rw [hb] at e e1
    simp only at e e1
    have hsc := validateFaces_scale n ns faces pf r faces true fun _ => 1
    simp only [mul_one] at hsc
    rw [hsc, e1] at e
    obtain rfl := Option.some.inj e
    obtain ⟨q, hq, hlt⟩ := h3 hv
    refine ⟨q, hq, ?_⟩
    have hk := validateFaces_factors n ns faces pf faces _ _ (fun _ => .inl rfl) e1 q
    have hlt : s.radius q < 1 := hlt
    rcases hk with hk | hk
    · rw [hk] at hlt; simp at hlt
    · show r q * s.radius q ≤ _
      nlinarith [hr q hq]

/-! ## The rounds -/

/-- `r'` has the centres of `r` and radii that are not larger. -/
structure OnlyShrunk (r r' : SurfRun) : Prop where
  num : r'.tree.num = r.tree.num
  pts : ∀ i d, d < 3 → r'.tree.pts i d = r.tree.pts i d
  le : ∀ i, i < r.tree.num → r'.tree.pts i 3 ≤ r.tree.pts i 3

theorem OnlyShrunk.of {r r' : SurfRun} {P : PointStore ℝ} (hs : SameBut r.tree.spheres P) (hle : ∀ i, i < r.tree.num → P.pts i 3 ≤ r.tree.pts i 3) (e : r'.tree = { r.tree with pts := P.pts }) : OnlyShrunk r r' := by
  refine ⟨by rw [e], fun i d hd => ?_, fun i hi => by rw [e]; exact hle i hi⟩
  rw [e]
  exact hs.pts i d (by show d ≠ 3; omega)

theorem surfFinish_step {E : SurfSetup} (hE : E.Ok) {r r' : SurfRun} (hr : SurfRunOk E r) {o : Option (SeedTree × SeedTree)} (h : surfFinish E r = some (r', o)) :
    OnlyShrunk r r' ∧ (o = none → (LipDone r'.tree.spheres r'.tree.links E.L ∧ ¬ LipDone r.tree.spheres r.tree.links E.L) ∨ ∃ k, k < r.tree.num ∧ r'.tree.pts k 3 ≤ 0.95 * r.tree.pts k 3) := by
  rcases Nat.eq_zero_or_pos r.tree.num with h0 | hpos
  · unfold surfFinish at h
    rw [C27_empty_undefined E.L r.tree.spheres r.tree.links h0] at h
    simp at h
  have ht : SphereTree r.tree.spheres r.tree.links := hr.wf.resolve_left (by show r.tree.num ≠ 0; omega)
  obtain ⟨P, sh, eP, hs, hP, hle, -⟩ := C27_lipschitz_tree_partial E.L hE.L0 r.tree.spheres r.tree.links ht r.tree.num le_rfl false
  have eS : ({ r.tree with pts := P.pts } : SmartTree ℝ).spheres = P := SmartTree.Wf_pts hs
  have hnum : P.num = r.tree.num := hs.num
  unfold surfFinish at h
  rw [eP] at h
  cases sh with
  | true =>
    simp only [Option.some.injEq, Prod.mk.injEq] at h
    obtain ⟨rfl, rfl⟩ := h
    refine ⟨.of hs hle rfl, fun _ => .inl ⟨?_, fun hd => ?_⟩⟩
    · show LipDone ({ r.tree with pts := P.pts } : SmartTree ℝ).spheres r.tree.links E.L
      rw [eS]; exact lipTree_done hE.L0 ht eP
    · have := lipTree_again hE.L0 ht hd eP
      simp at this
  | false =>
    simp only at h
    split at h
    · simp at h
    · next Q _ _ es =>
      obtain ⟨k1, -, k3, -, -⟩ := surfaceSeeds_sane hE hP rfl es
      obtain ⟨k, hk, hd⟩ := surfaceSeeds_drop hE hP rfl es
      simp only [Option.some.injEq, Prod.mk.injEq] at h
      obtain ⟨rfl, rfl⟩ := h
      refine ⟨.of (hs.trans k1) (fun i hi => (k3 i (by rw [hnum]; exact hi)).trans (hle i hi)) rfl, fun _ => .inr ⟨k, by rw [← hnum]; exact hk, ?_⟩⟩
      have hk' : k < r.tree.num := by rw [← hnum]; exact hk
      have : P.pts k 3 ≤ r.tree.pts k 3 := hle k hk'
      show Q.pts k 3 ≤ _
      linarith
    · next Q up lo es =>
      obtain ⟨-, -, -, k4, k5⟩ := surfaceSeeds_sane hE hP rfl es
      obtain rfl := k4 rfl
      have hmesh : TriMesh (Q.num + E.edge.store.num + E.corner.store.num) (sphereTriples lo) := by
        intro f hf
        obtain ⟨a, ha, rfl⟩ := List.mem_map.1 hf
        refine ⟨rfl, fun c hc => ?_⟩
        simp only [List.mem_cons, List.not_mem_nil, or_false] at hc
        rcases hc with rfl | rfl | rfl
        exacts [(k5 a ha).h1, (k5 a ha).h2, (k5 a ha).h3]
      have hsimple : SimpleFaces (sphereTriples lo) := by
        intro f hf
        obtain ⟨a, ha, rfl⟩ := List.mem_map.1 hf
        have := k5 a ha
        simp [this.n12, this.n13, this.n23]
      obtain ⟨v, ev, -, v2⟩ := validateSurface_any _ Q.num _ hmesh hsimple fun q => Q.pts q 3
      have hv0 : ∀ i, i < Q.num → 0 ≤ v.radius i := fun i hi => by
        obtain ⟨k, h0, -, e⟩ := v2 i
        rw [e]; exact mul_nonneg (hP.nonneg i hi) h0
      obtain ⟨w1, w2, w3⟩ := setRadii_spec hP v.radius Q.num hv0
      have hw : ∀ i, i < r.tree.num → (setRadii v.radius Q.num Q).pts i 3 = v.radius i := fun i hi => by
        rw [← w2.radius, w3, if_pos (by rw [hnum]; exact hi)]
      rw [ev] at h
      simp only [Option.some.injEq, Prod.mk.injEq] at h
      obtain ⟨rfl, ho⟩ := h
      refine ⟨.of (hs.trans w1) (fun i hi => ?_) rfl, fun hn => .inr ?_⟩
      · rw [hw i hi]
        obtain ⟨k, h0, h1, e⟩ := v2 i
        rw [e]
        exact (mul_le_of_le_one_right (hP.nonneg i (by rw [hnum]; exact hi)) h1).trans (hle i hi)
      · have htight : v.tight = false := by
          cases hv : v.tight with
          | false => rfl
          | true => rw [hv, if_pos rfl] at ho; rw [← ho] at hn; simp at hn
        obtain ⟨q, hq, hd⟩ := validateSurface_drop _ Q.num _ hmesh hsimple (fun q => Q.pts q 3) (fun q hq => hP.nonneg q hq) ev htight
        have hq' : q < r.tree.num := by rw [← hnum]; exact hq
        refine ⟨q, hq', ?_⟩
        show (setRadii v.radius Q.num Q).pts q 3 ≤ _
        rw [hw q hq']
        have : Q.pts q 3 ≤ r.tree.pts q 3 := hle q hq'
        linarith

theorem surfCheck_step {E : SurfSetup} (hE : E.Ok) {r r' : SurfRun} (hr : SurfRunOk E r) {o : Option (SeedTree × SeedTree)} (h : surfCheck E r = some (r', o)) :
    OnlyShrunk r r' ∧ (o = none → (LipDone r'.tree.spheres r'.tree.links E.L ∧ ¬ LipDone r.tree.spheres r.tree.links E.L) ∨ ∃ k, k < r.tree.num ∧ r'.tree.pts k 3 ≤ 0.95 * r.tree.pts k 3) := by
  unfold surfCheck at h
  by_cases ht : E.tol > 0
  · rw [if_pos ht] at h
    have hn : narrowSurf E r.tree.links r.ids r.tree.spheres r.tree.num = some (r.tree.spheres, false) := by
      rcases hr.wf with h0 | h0
      · have h0 : r.tree.num = 0 := h0
        rw [h0]; rfl
      · exact narrowSurf_spec hE (fun j f hj => (hr.on j f hj).1) h0 hr.len _ le_rfl
    rw [hn] at h
    exact surfFinish_step hE hr h
  · rw [if_neg ht] at h
    exact surfFinish_step hE hr h

/-- One pass of the outer loop that does not return: from the spheres at its start to those at its end. -/
def SurfStep (E : SurfSetup) (mps : Nat) (r r' : SurfRun) : Prop :=
  ∃ ps r1, patchLoop E.S.numFaces 100 0 100 = some ps ∧ surfPatches E mps ps r = some (some r1) ∧ surfCheck E r1 = some (r', none)

/-- The spheres after `n` passes. -/
inductive SurfAfter (E : SurfSetup) (mps : Nat) : Nat → SurfRun → Prop
  | start : SurfAfter E mps 0 ⟨SmartTree.empty (fun _ _ => 0) id id, [], fun _ => none, 0, 0⟩
  | next {n : Nat} {r r' : SurfRun} : SurfAfter E mps n r → SurfStep E mps r r' → SurfAfter E mps (n + 1) r'

theorem SurfRunOk.most {E : SurfSetup} {r : SurfRun} (hr : SurfRunOk E r) {i : Nat} (hi : i < r.tree.num) : r.tree.pts i 3 ≤ max E.rmax E.rmin := by
  have hi' : i < r.ids.length := by rw [hr.len]; exact hi
  obtain ⟨-, y, -, -, h, -⟩ := hr.on i r.ids[i] (List.getElem?_eq_getElem hi')
  exact h.rmax

/-- The sampling and what comes after it. -/
theorem surfPass_step {E : SurfSetup} (hE : E.Ok) {mps : Nat} {ps : List (Nat × List Nat)} (ep : patchLoop E.S.numFaces 100 0 100 = some ps) {r r1 r2 : SurfRun} (hr : SurfRunOk E r)
    (e1 : surfPatches E mps ps r = some (some r1)) {o : Option (SeedTree × SeedTree)} (e2 : surfCheck E r1 = some (r2, o)) (m : ℝ) :
    SurfRunOk E r1 ∧ SurfRunOk E r2 ∧ TreeExt r.tree r1.tree ∧ OnlyShrunk r1 r2 ∧ (RadiiAtLeast m r2.tree → RadiiAtLeast m r1.tree ∧ RadiiAtLeast m r.tree ∧
      (Apart (coverBeta E.ratio * m) r.tree → Apart (coverBeta E.ratio * m) r1.tree ∧ Apart (coverBeta E.ratio * m) r2.tree)) := by
  obtain ⟨ps', ep', hps, hall⟩ := patches_all E.S.numFaces hE.some_face
  obtain rfl := Option.some.inj (ep.symm.trans ep')
  obtain ⟨h1, -, c1⟩ := (surfPatches_spec hE mps ps hps r hr).result e1 r1 rfl
  obtain ⟨x1, x2⟩ := surfPatches_apart hE m mps ps hps r r1 hr e1
  have h2 := (surfCheck_spec hE h1 (fun f hf x hx => by obtain ⟨p, hp, hfp⟩ := hall f hf; exact c1 p hp f hfp x hx) e2).1
  have hs := (surfCheck_step hE h1 e2).1
  refine ⟨h1, h2, x1, hs, fun hm => ?_⟩
  have hm1 : RadiiAtLeast m r1.tree := fun i hi => (hm i (by rw [hs.num]; exact hi)).trans (hs.le i hi)
  refine ⟨hm1, hm1.before x1, fun ha => ⟨x2 hm1 ha, fun i j hij hj => ?_⟩⟩
  rw [hs.num] at hj
  refine (x2 hm1 ha i j hij hj).trans (le_of_eq ?_)
  exact (euclid_congr (fun d hd => hs.pts i d hd) fun d hd => hs.pts j d hd).symm

/-- Centres on the surface that are apart are not too many. -/
theorem surfApart_count {S : PoolSurface (Nat → ℝ)} {δ : ℝ} (hδ : 0 < δ) : ∃ M : Nat, ∀ (E : SurfSetup) (r : SurfRun), E.S = S → SurfRunOk E r → Apart δ r.tree → r.tree.num ≤ M := by
  obtain ⟨B, hB⟩ : ∃ B, ∀ f, f < S.numFaces → ∀ c, c < 3 → ∀ d, d < 3 → |S.point (S.corner f c) d| ≤ B := by
    refine ⟨∑ f ∈ Finset.range S.numFaces, ∑ c ∈ Finset.range 3, ∑ d ∈ Finset.range 3, |S.point (S.corner f c) d|, fun f hf c hc d hd => ?_⟩
    refine le_trans ?_ (Finset.single_le_sum (f := fun f => ∑ c ∈ Finset.range 3, ∑ d ∈ Finset.range 3, |S.point (S.corner f c) d|) (fun _ _ => by positivity) (Finset.mem_range.2 hf))
    refine le_trans ?_ (Finset.single_le_sum (f := fun c => ∑ d ∈ Finset.range 3, |S.point (S.corner f c) d|) (fun _ _ => by positivity) (Finset.mem_range.2 hc))
    exact Finset.single_le_sum (f := fun d => |S.point (S.corner f c) d|) (fun _ _ => abs_nonneg _) (Finset.mem_range.2 hd)
  obtain ⟨M, hM⟩ := packing hδ B
  refine ⟨M, fun E r hES hr ha => ?_⟩
  have := hM ((List.range r.tree.num).map r.tree.pts) (fun p hp d hd => ?_) ?_
  · simpa using this
  · obtain ⟨i, hi, rfl⟩ := List.mem_map.1 hp
    have hi : i < r.ids.length := by rw [hr.len]; exact List.mem_range.1 hi
    obtain ⟨hf, y, ⟨u, v, w, hu, hv, hw, huvw, hy⟩, h2, -⟩ := hr.on i r.ids[i] (List.getElem?_eq_getElem hi)
    rw [hES] at hf hy
    rw [h2 d hd, hy d]
    have a := abs_le.1 (hB _ hf 0 (by omega) d hd)
    have b := abs_le.1 (hB _ hf 1 (by omega) d hd)
    have c := abs_le.1 (hB _ hf 2 (by omega) d hd)
    rw [abs_le]
    constructor <;> nlinarith [a.1, a.2, b.1, b.2, c.1, c.2]
  · rw [List.pairwise_map]
    exact (List.pairwise_lt_range).imp_of_mem fun {i j} _ hj hij => ha i j hij (List.mem_range.1 hj)

theorem surfAfter_ok {E : SurfSetup} (hE : E.Ok) {mps n : Nat} {r : SurfRun} (h : SurfAfter E mps n r) : SurfRunOk E r := by
  induction h with
  | start => exact surfRunOk_empty E
  | next _ hstep ih =>
    obtain ⟨ps, r1, ep, e1, e2⟩ := hstep
    exact (surfPass_step hE ep ih e1 e2 0).2.1

/-- What `n` passes have used up. -/
theorem surfAfter_spec {E : SurfSetup} (hE : E.Ok) {mps : Nat} {m : ℝ} (hm0 : 0 < m) {M : Nat} {Λ : ℝ} (hΛ : Real.log (max E.rmax E.rmin / m) ≤ Λ) {n : Nat} {r : SurfRun} (h : SurfAfter E mps n r) :
    RadiiAtLeast m r.tree → Apart (coverBeta E.ratio * m) r.tree ∧ ∃ (d : Nat) (b : Bool), (b = true → LipDone r.tree.spheres r.tree.links E.L) ∧
      treePotential M Λ m r.tree + d * Real.log (1 + 1e-8) ≤ M * (Λ + 1) ∧ n ≤ 2 * d + (if b then 1 else 0) := by
  have hε : Real.log (1 + 1e-8) ≤ 1 := (Real.log_le_sub_one_of_pos (by norm_num)).trans (by norm_num)
  induction h with
  | start =>
    refine fun _ => ⟨fun i j _ hj => absurd hj (Nat.not_lt_zero j), 0, false, by simp, ?_, by simp⟩
    show ((M : ℝ) - (0 : Nat)) * (Λ + 1) + ∑ i ∈ Finset.range 0, _ + ((0 : Nat) : ℝ) * _ ≤ _
    rw [Finset.range_zero, Finset.sum_empty, Nat.cast_zero, sub_zero, add_zero, zero_mul, add_zero]
  | @next n r r2 hafter hstep ih =>
    intro hm
    obtain ⟨ps, r1, ep, e1, e2⟩ := hstep
    obtain ⟨h1, -, x1, x2, x3⟩ := surfPass_step hE ep (surfAfter_ok hE hafter) e1 e2 m
    obtain ⟨hm1, hmr, x4⟩ := x3 hm
    obtain ⟨ha, d, b, hb, hpot, hn⟩ := ih hmr
    have hm2 : ∀ i, i < r1.tree.num → m ≤ r2.tree.pts i 3 := fun i hi => hm i (by rw [x2.num]; exact hi)
    refine ⟨(x4 ha).2, ?_⟩
    have hmono := treePotential_mono hm0 (M := M) (Λ := Λ) x2.num hm2 x2.le
    have hφ : treePotential M Λ m r1.tree ≤ treePotential M Λ m r.tree := by
      rcases Nat.eq_or_lt_of_le x1.num with h | h
      · rw [x1.same h.symm]
      · linarith [treePotential_new hm0 hm1 (fun i hi => h1.most hi) (M := M) hΛ h x1.old]
    rcases (surfCheck_step hE h1 e2).2 rfl with ⟨l1, l2⟩ | ⟨k, hk, hd⟩
    · rcases Nat.eq_or_lt_of_le x1.num with h | h
      · have hb' : b = false := by
          cases b with
          | false => rfl
          | true => rw [x1.same h.symm] at l2; exact absurd (hb rfl) l2
        subst hb'
        exact ⟨d, true, fun _ => l1, by linarith, by simp at hn ⊢; omega⟩
      · have := treePotential_new hm0 hm1 (fun i hi => h1.most hi) (M := M) hΛ h x1.old
        refine ⟨d + 1, true, fun _ => l1, by push_cast; linarith, ?_⟩
        have : (if b then 1 else 0) ≤ 1 := by split <;> omega
        simp only [if_true]
        omega
    · have hp := hm2 k hk
      have := treePotential_drop hm0 (M := M) (Λ := Λ) x2.num hm2 x2.le hk (by nlinarith)
      refine ⟨d + 1, false, by simp, by push_cast; linarith, ?_⟩
      have : (if b then 1 else 0) ≤ 1 := by split <;> omega
      simp only [Bool.false_eq_true, if_false]
      omega

/-- The outer loop in passes: it returns after some passes, or it is undefined, or a sampling threw all its darts, or all passes are done. -/
theorem surfLoop_after {E : SurfSetup} (mps : Nat) (fuel : Nat) : ∀ (n : Nat) (r : SurfRun), SurfAfter E mps n r →
    surfLoop E mps fuel r = none ∨ (∃ k r1 r2 r3 s ps, SurfAfter E mps k r1 ∧ patchLoop E.S.numFaces 100 0 100 = some ps ∧ surfPatches E mps ps r1 = some (some r2) ∧ surfCheck E r2 = some (r3, some s) ∧
      surfLoop E mps fuel r = some (some (r3, s))) ∨
    (surfLoop E mps fuel r = some none ∧ ((∃ k r1 ps, SurfAfter E mps k r1 ∧ patchLoop E.S.numFaces 100 0 100 = some ps ∧ surfPatches E mps ps r1 = some none) ∨ ∃ r1, SurfAfter E mps (n + fuel) r1)) := by
  induction fuel with
  | zero => exact fun n r h => .inr (.inr ⟨rfl, .inr ⟨r, h⟩⟩)
  | succ fuel ih =>
    intro n r h
    rw [surfLoop]
    cases ep : patchLoop E.S.numFaces 100 0 100 with
    | none => exact .inl rfl
    | some ps =>
      simp only
      cases e1 : surfPatches E mps ps r with
      | none => exact .inl rfl
      | some o =>
        cases o with
        | none => exact .inr (.inr ⟨rfl, .inl ⟨n, r, ps, h, rfl, e1⟩⟩)
        | some r1 =>
          simp only
          cases e2 : surfCheck E r1 with
          | none => exact .inl rfl
          | some q =>
            obtain ⟨r2, o⟩ := q
            cases o with
            | none =>
              have := ih (n + 1) r2 (.next h ⟨ps, r1, ep, e1, e2⟩)
              rw [ep, show n + 1 + fuel = n + (fuel + 1) by omega] at this
              exact this
            | some s => exact .inr (.inl ⟨n, r, r1, r2, s, ps, h, rfl, e1, e2, rfl⟩)

/-! ## The claim -/

/-- **C113.** For every surface and every `m > 0` there are numbers `M` and `K`, whatever the random numbers, the other spheres and queries and the number of threads: as long as no radius is below `m`, the
centres are at least `coverBeta * m` apart, there are at most `M` spheres, and at most `K` passes of the outer loop have been made; this holds after every pass and for what is returned.  So with more than `K`
passes `generate_surface_spheres` returns, is undefined, a sampling has thrown all its darts, or some radius has fallen below `m`. -/
theorem C113_surface_rounds (S : PoolSurface (Nat → ℝ)) (rmax rmin ratio m : ℝ) (h0 : 0 ≤ ratio) (h1 : ratio < 1) (hm : 0 < m) :
    ∃ K M : Nat, ∀ E : SurfSetup, E.Ok → E.S = S → E.rmax = rmax → E.rmin = rmin → E.ratio = ratio → ∀ mps,
      (∀ n r, SurfAfter E mps n r → (∀ i, i < r.tree.num → m ≤ r.tree.pts i 3) →
        n ≤ K ∧ r.tree.num ≤ M ∧ ∀ i j, i < j → j < r.tree.num → coverBeta ratio * m ≤ euclid 3 (r.tree.pts i) (r.tree.pts j)) ∧
      (∀ fuel r up lo, surfaceSpheres E mps fuel = some (some (r, up, lo)) → (∀ i, i < r.tree.num → m ≤ r.tree.pts i 3) →
        r.tree.num ≤ M ∧ ∀ i j, i < j → j < r.tree.num → coverBeta ratio * m ≤ euclid 3 (r.tree.pts i) (r.tree.pts j)) ∧
      ∀ fuel, K < fuel → surfaceSpheres E mps fuel = some none →
        (∃ n r ps, SurfAfter E mps n r ∧ patchLoop E.S.numFaces 100 0 100 = some ps ∧ surfPatches E mps ps r = some none) ∨
        ∃ r i, SurfAfter E mps fuel r ∧ i < r.tree.num ∧ r.tree.pts i 3 < m := by
  have hβ : 0 < coverBeta ratio := by
    have h2 : 0 < Real.sqrt (1 - ratio ^ 2) := Real.sqrt_pos.2 (by nlinarith)
    exact h2.trans_le (coverBeta_bounds h0 h1).1
  obtain ⟨M, hM⟩ := surfApart_count (S := S) (mul_pos hβ hm)
  have hε : 0 < Real.log (1 + 1e-8) := Real.log_pos (by norm_num)
  obtain ⟨k, hk⟩ := exists_nat_gt (M * (max 0 (Real.log (max rmax rmin / m)) + 1) / Real.log (1 + 1e-8))
  rw [div_lt_iff₀ hε] at hk
  refine ⟨2 * k, M, fun E hE hS hmax hmin hrat mps => ?_⟩
  have hΛ : Real.log (max E.rmax E.rmin / m) ≤ max 0 (Real.log (max rmax rmin / m)) := by rw [hmax, hmin]; exact le_max_right _ _
  have key : ∀ n r, SurfAfter E mps n r → (∀ i, i < r.tree.num → m ≤ r.tree.pts i 3) →
        n ≤ 2 * k ∧ r.tree.num ≤ M ∧ ∀ i j, i < j → j < r.tree.num → coverBeta ratio * m ≤ euclid 3 (r.tree.pts i) (r.tree.pts j) := by
    intro n r h hrad
    obtain ⟨ha, d, b, -, hpot, hn⟩ := surfAfter_spec hE hm (M := M) hΛ h hrad
    rw [hrat] at ha
    have hnum := hM E r hS (surfAfter_ok hE h) ha
    refine ⟨?_, hnum, ha⟩
    have := treePotential_nonneg hm hrad hnum (le_max_left 0 (Real.log (max rmax rmin / m)))
    have hd : (d : ℝ) < k := lt_of_mul_lt_mul_right (by linarith) hε.le
    have hd : d < k := by exact_mod_cast hd
    have : (if b then 1 else 0) ≤ 1 := by split <;> omega
    omega
  refine ⟨key, fun fuel r up lo h hrad => ?_, fun fuel hf h => ?_⟩
  · rcases surfLoop_after mps fuel 0 _ (.start (E := E)) with h' | ⟨n, r1, r2, r3, s, ps, a1, ep, e1, e2, h'⟩ | ⟨h', -⟩
    · rw [surfaceSpheres, h'] at h; simp at h
    · rw [surfaceSpheres, h'] at h
      have h := Option.some.inj (Option.some.inj h)
      simp only [Prod.mk.injEq] at h
      obtain ⟨rfl, -⟩ := h
      obtain ⟨-, g1, -, -, g2⟩ := surfPass_step hE ep (surfAfter_ok hE a1) e1 e2 m
      obtain ⟨-, g3, g4⟩ := g2 hrad
      have ha := (g4 (by rw [hrat]; exact (key n r1 a1 g3).2.2)).2
      rw [hrat] at ha
      exact ⟨hM E _ hS g1 ha, ha⟩
    · rw [surfaceSpheres, h'] at h; simp at h
  · rcases surfLoop_after mps fuel 0 _ (.start (E := E)) with h' | ⟨n, r1, r2, r3, s, ps, -, -, -, -, h'⟩ | ⟨-, h' | ⟨r, h'⟩⟩
    · rw [surfaceSpheres, h'] at h; simp at h
    · rw [surfaceSpheres, h'] at h; simp at h
    · obtain ⟨n, r, ps, q⟩ := h'
      exact .inl ⟨n, r, ps, q⟩
    · right
      rw [Nat.zero_add] at h'
      by_contra hno
      have := (key fuel r h' fun i hi => not_lt.1 fun hlt => hno ⟨r, i, h', hi, hlt⟩).1
      omega

/-- A case: one face, where the function returns with a radius of 10. -/
example : ∃ E : SurfSetup, E.Ok ∧ ∃ r up lo, surfaceSpheres E 101 1 = some (some (r, up, lo)) ∧ r.tree.num = 1 ∧ RadiiAtLeast 10 r.tree := by
  obtain ⟨E, hE, -, -, -, -, r, up, lo, e, hn, hr, -⟩ := oneFace_returns
  refine ⟨E, hE, r, up, lo, e, hn, fun i hi => ?_⟩
  obtain rfl : i = 0 := by omega
  rw [hr]

end VoroCrust
