import Verif.Props.PolyGeom

/-!
# Cutting a polytope with a plane

When no corner lies on or close to the plane, `trim_vertex` turns the graph of the corners of a polytope into that of its part on one side.
-/

namespace VoroCrust

open Classical

/-- A half-edge whose both ends go. -/
def Inward (P0 : Poly) (xo n : Nat → ℝ) : Set (Nat × Nat) := {e | Beyond P0 xo n e.1 ∧ ∀ d, P0.nbr e.1 e.2 = some d → Beyond P0 xo n d}

/-- What `trim_vertex` leaves: `ed k` is the half-edge on which the new corner `k` lies, `far k` its end that stays. -/
structure Trimmed (P0 : Poly) (xo n : Nat → ℝ) (t : Nat) (R : Poly) (ed : Nat → Nat × Nat) (far : Nat → Nat) : Prop where
  wf : R.WF
  num : P0.num ≤ R.num
  live : ∀ c, R.Live c ↔ Within P0 xo n c ∨ (P0.num ≤ c ∧ c < R.num)
  posOld : ∀ c, Within P0 xo n c → R.pos c = P0.pos c
  wallOld : ∀ c, Within P0 xo n c → R.wall c = P0.wall c
  nbrOld : ∀ c i d, i < 3 → Within P0 xo n c → P0.nbr c i = some d → Within P0 xo n d → R.nbr c i = some d
  edIn : ∀ k, P0.num ≤ k → k < R.num → Beyond P0 xo n (ed k).1 ∧ (ed k).2 < 3 ∧ P0.nbr (ed k).1 (ed k).2 = some (far k) ∧ Within P0 xo n (far k)
  edInj : ∀ k l, P0.num ≤ k → k < R.num → P0.num ≤ l → l < R.num → ed k = ed l → k = l
  edSurj : ∀ s i d, Beyond P0 xo n s → i < 3 → P0.nbr s i = some d → Within P0 xo n d → ∃ k, P0.num ≤ k ∧ k < R.num ∧ ed k = (s, i)
  back : ∀ k j, P0.num ≤ k → k < R.num → j < 3 → P0.nbr (far k) j = some (ed k).1 → R.nbr (far k) j = some k
  slots : ∀ k, P0.num ≤ k → k < R.num → R.nbr k (ed k).2 = some (far k) ∧ R.nbr k (((ed k).2 + 1) % 3) = some (ringNext P0.num R.num k) ∧ R.nbr k (((ed k).2 + 2) % 3) = some (ringPrev P0.num R.num k)
  walls : ∀ k, P0.num ≤ k → k < R.num → R.wall k (ed k).2 = P0.wall (ed k).1 (ed k).2 ∧ R.wall k (((ed k).2 + 1) % 3) = some (Wall.pt t) ∧
    R.wall k (((ed k).2 + 2) % 3) = P0.wall (ed k).1 (((ed k).2 + 2) % 3)
  pos : ∀ k xc xd, P0.num ≤ k → k < R.num → P0.pos (ed k).1 = some xc → P0.pos (far k) = some xd → R.pos k = some fun x => xc x + cutParam (side xo n xc) (side xo n xd) * (xd x - xc x)
  ring : ∀ k, P0.num ≤ k → k < R.num → P0.wall (ed k).1 (ed k).2 = P0.wall (ed (ringNext P0.num R.num k)).1 (((ed (ringNext P0.num R.num k)).2 + 2) % 3)
  join : ∃ r, Beyond P0 xo n r ∧ ∀ s, Beyond P0 xo n s → Join P0 (Inward P0 xo n) s r

variable {pl : Option Wall → (Nat → ℝ) × (Nat → ℝ)} {P0 R : Poly} {xo n : Nat → ℝ} {t : Nat}

theorem side_neg (xo n v : Nat → ℝ) : side xo (fun d => -n d) v = -side xo n v := by unfold side; ring

/-- The run of `trim_vertex` on a polytope. -/
theorem trimVertex_trimmed (h : P0.Shape pl) (t : Nat) {c : Nat} (hc : Beyond P0 xo n c) : ∃ R ed far, trimVertex t xo n (P0.num + 1) c c P0 = some R ∧ Trimmed P0 xo n t R ed far := by
  obtain ⟨Q, S, T, L, hrun, hti, htr, hcS, hch⟩ := trimVertex_walk (t := t) h.wf h.coh h.simple hc
  have hR := linkRing_ringed hti.num
  have hconnB : P0.Conn (Beyond P0 xo n) := h.conn xo n _ (fun c => Beyond.live) fun c d u v hcB hu hv hle => by
    obtain ⟨u', hu', hgt⟩ := hcB
    obtain rfl := Option.some.inj (hu.symm.trans hu')
    exact ⟨v, hv, by linarith⟩
  have hconnW : P0.Conn (Within P0 xo n) := h.conn xo (fun d => -n d) _ (fun c => Within.live) fun c d u v hcW hu hv hle => by
    obtain ⟨u', hu', hgt⟩ := hcW
    obtain rfl := Option.some.inj (hu.symm.trans hu')
    rw [side_neg, side_neg] at hle
    exact ⟨v, hv, by linarith⟩
  have hSB : ∀ s, Beyond P0 xo n s → s ∈ S := fun s hs => hconnB (· ∈ S) (fun a i d hi _ _ hd hn ha => (hti.done a ha i hi d hn).resolve_right hd.not_within) c s hc hs hcS
  have hWS : ∀ {d}, Within P0 xo n d → d ∉ S := fun hd g => (hti.beyond _ g).not_within hd
  have hWn : ∀ {d}, P0.Live d → d ∉ S → Within P0 xo n d := fun hl hd => (live_cases hl).resolve_left fun g => hd (hSB _ g)
  let K := cutsOf P0 xo n L
  let ed : Nat → Nat × Nat := fun k => K.getD (k - P0.num) (0, 0)
  have hnum := htr.num
  have hed : ∀ k, P0.num ≤ k → k < Q.num → K[k - P0.num]? = some (ed k) := fun k h1 h2 => by
    have hlt : k - P0.num < K.length := by show k - P0.num < (cutsOf P0 xo n L).length; omega
    simp only [ed, List.getD_eq_getElem?_getD, List.getElem?_eq_getElem hlt, Option.getD_some]
  have hKL : ∀ e, e ∈ K ↔ e ∈ L ∧ IsCut P0 xo n e := fun e => by
    show e ∈ cutsOf P0 xo n L ↔ _
    unfold cutsOf
    rw [List.mem_filter]
    simp
  have hnew : ∀ k, P0.num ≤ k → k < Q.num → ∃ d xc xd j, NewAt P0 xo n t Q k (ed k) d xc xd j := fun k h1 h2 => by
    have := htr.new _ _ (hed k h1 h2)
    rwa [show P0.num + (k - P0.num) = k by omega] at this
  choose! far xc xd sl hat using hnew
  have hsl : ∀ k, P0.num ≤ k → k < Q.num → (ed k).1 ∈ S ∧ (ed k).2 < 3 := fun k h1 h2 => by
    have := (hKL _).1 (List.mem_of_getElem? (hed k h1 h2))
    exact ⟨(htr.mem _ this.1).1, (htr.mem _ this.1).2.1⟩
  have hne1 : ∀ i, i < 3 → (i + 1) % 3 ≠ i ∧ (i + 2) % 3 ≠ i ∧ (i + 1) % 3 ≠ (i + 2) % 3 := fun i hi => by omega
  refine ⟨_, ed, far, hrun, ⟨hti.wf h.wf hR, by rw [hR.num]; exact hti.num, fun a => ?_, fun a ha => ?_, fun a ha => ?_, fun a i d hi ha hn hd => ?_, fun k h1 h2 => ?_, fun k l h1 h2 h3 h4 he => ?_,
    fun s i d hs hi hn hd => ?_, fun k j h1 h2 hj hb => ?_, fun k h1 h2 => ?_, fun k h1 h2 => ?_, fun k uc ud h1 h2 e1 e2 => ?_, fun k h1 h2 => ?_, ⟨c, hc, fun s hs => ?_⟩⟩⟩
  · rw [hR.num, Poly.Live, hR.pos, hti.live_iff h.wf]
    constructor
    · rintro (⟨g1, g2⟩ | g)
      · exact Or.inl (hWn g1 g2)
      · exact Or.inr g
    · rintro (g | g)
      · exact Or.inl ⟨g.live, hWS g⟩
      · exact Or.inr g
  · rw [hR.pos]; exact hti.old a (h.wf.fin a ha.live) (hWS ha)
  · rw [hR.wall]; exact htr.walls a (h.wf.fin a ha.live) (hWS ha)
  · rw [hR.old a (Or.inl (h.wf.fin a ha.live))]
    rcases hti.old_slot h.wf hi ha.live (hWS ha) with ⟨g, -⟩ | ⟨-, k, s, -, -, -, g4, g5⟩
    · rw [g, hn]
    · obtain rfl := Option.some.inj (g5.symm.trans hn)
      exact absurd g4 (hWS hd)
  · rw [hR.num] at h2
    have := hat k h1 h2
    exact ⟨hti.beyond _ (hsl k h1 h2).1, (hsl k h1 h2).2, this.nbr0, this.within⟩
  · rw [hR.num] at h2 h4
    have e1 := hed k h1 h2
    have e2 := hed l h3 h4
    rw [he] at e1
    have := (List.getElem?_eq_some_iff.1 e1).1
    have hnd : K.Nodup := htr.nodup.filter _
    have := (List.getElem?_inj this hnd).1 (e1.trans e2.symm)
    omega
  · have hT : (s, i) ∉ T := fun g => by
      obtain ⟨-, -, d', j, q1, q2, -⟩ := htr.tree _ g
      obtain rfl := Option.some.inj (hn.symm.trans q1)
      exact hWS hd q2
    have hmem : (s, i) ∈ K := (hKL _).2 ⟨(htr.full s (hSB s hs) i hi).resolve_right hT, d, hn, hd⟩
    obtain ⟨m, hm⟩ := List.getElem?_of_mem hmem
    have hlt := (List.getElem?_eq_some_iff.1 hm).1
    have hlt' : m < (cutsOf P0 xo n L).length := hlt
    refine ⟨P0.num + m, by omega, by rw [hR.num]; omega, ?_⟩
    have := hed (P0.num + m) (by omega) (by omega)
    rw [show P0.num + m - P0.num = m by omega, hm] at this
    exact (Option.some.inj this).symm
  · rw [hR.num] at h2
    have g := hat k h1 h2
    have : j = sl k := h.simple (far k) _ _ hj g.lt g.within.live (hb.trans g.back.symm)
    rw [hR.old _ (Or.inl (h.wf.fin _ g.within.live)), this, g.backk]
  · rw [hR.num] at h2
    have g := hat k h1 h2
    obtain ⟨e1, e2, e3⟩ := hR.ring k h1 h2 (ed k).2 (far k) (hsl k h1 h2).2 (by rw [g.nbr, if_pos rfl]) fun j' _ hj' => by rw [g.nbr, if_neg hj']
    rw [hR.num]
    exact ⟨e1, e2, e3⟩
  · rw [hR.num] at h2
    have g := hat k h1 h2
    obtain ⟨n1, n2, n3⟩ := hne1 _ (hsl k h1 h2).2
    rw [hR.wall]
    exact ⟨by rw [g.wall, if_pos rfl], by rw [g.wall, if_neg n1, if_neg n3], by rw [g.wall, if_neg n2, if_pos rfl]⟩
  · rw [hR.num] at h2
    have g := hat k h1 h2
    obtain rfl := Option.some.inj (e1.symm.trans g.posc)
    obtain rfl := Option.some.inj (e2.symm.trans g.posd)
    rw [hR.pos]; exact g.pos
  · rw [hR.num] at h2 ⊢
    have hm := ringNext_mem h1 h2
    refine htr.ring h.wf h.simple h.fill hconnW h.coh hti hch (hed k h1 h2) ?_
    have := hed _ hm.1 hm.2.1
    have e : (ringNext P0.num Q.num k - P0.num) = if k - P0.num + 1 = (cutsOf P0 xo n L).length then 0 else k - P0.num + 1 := by
      unfold ringNext; split_ifs <;> omega
    rw [← e]; exact this
  · refine (htr.join s (hSB s hs)).mono fun e he => ?_
    obtain ⟨g1, -, d, j, q1, q2, -⟩ := htr.tree e he
    refine ⟨hti.beyond _ g1, fun d' hd' => ?_⟩
    obtain rfl := Option.some.inj (hd'.symm.trans q1)
    exact hti.beyond _ q2

section

variable {ed : Nat → Nat × Nat} {far : Nat → Nat}

theorem cutParam_gp {a b : ℝ} (ha : 0 < a) (hb : b < 0) : 0 < cutParam a b ∧ cutParam a b < 1 ∧ a + cutParam a b * (b - a) = 0 := by
  have hd : 0 < a - b := by linarith
  have h1 : 0 < a / (a - b) := by positivity
  have h2 : a / (a - b) < 1 := by rw [div_lt_one hd]; linarith
  have e : cutParam a b = a / (a - b) := by
    unfold cutParam
    rw [if_neg (by linarith), if_neg (by linarith)]
  rw [e]
  refine ⟨h1, h2, ?_⟩
  field_simp
  ring

theorem side_line (xo n xc xd : Nat → ℝ) (l : ℝ) : side xo n (fun x => xc x + l * (xd x - xc x)) = side xo n xc + l * (side xo n xd - side xo n xc) := by unfold side; ring

theorem slot_cover {i j : Nat} (hi : i < 3) (hj : j < 3) : i = j ∨ i = (j + 1) % 3 ∨ i = (j + 2) % 3 := by omega

/-- Each edge of the result has the same two walls at both ends. -/
theorem Trimmed.coh (h : P0.Shape pl) (g : Trimmed P0 xo n t R ed far) : R.Coh := by
  intro c i d hi hc hn
  rcases (g.live c).1 hc with hw | ⟨h1, h2⟩
  · obtain ⟨d0, e1, e2, -⟩ := h.wf.out c i hi hw.live
    obtain ⟨j, hj, e3, w1, w2⟩ := h.coh c i d0 hi hw.live e1
    rcases live_cases (xo := xo) (n := n) e2 with hb | hw'
    · obtain ⟨k, h1, h2, ek⟩ := g.edSurj d0 j c hb hj e3 hw
      have hf : far k = c := by
        have := (g.edIn k h1 h2).2.2.1
        rw [ek] at this
        exact Option.some.inj (this.symm.trans e3)
      have hb' := g.back k i h1 h2 hi (by rw [hf, ek]; exact e1)
      rw [hf] at hb'
      obtain rfl := Option.some.inj (hn.symm.trans hb')
      have hs := g.slots d h1 h2
      have hwl := g.walls d h1 h2
      rw [ek] at hs hwl
      refine ⟨j, hj, by rw [hs.1, hf], ?_, ?_⟩
      · rw [hwl.1, g.wallOld c hw]; exact w1
      · rw [hwl.2.2, g.wallOld c hw]; exact w2
    · obtain rfl := Option.some.inj (hn.symm.trans (g.nbrOld c i d0 hi hw e1 hw'))
      exact ⟨j, hj, g.nbrOld d j c hj hw' e3 hw, by rw [g.wallOld c hw, g.wallOld d hw']; exact w1, by rw [g.wallOld c hw, g.wallOld d hw']; exact w2⟩
  · obtain ⟨k1, k2, k3, k4⟩ := g.edIn c h1 h2
    obtain ⟨s1, s2, s3⟩ := g.slots c h1 h2
    obtain ⟨w1, w2, w3⟩ := g.walls c h1 h2
    rcases slot_cover hi k2 with rfl | rfl | rfl
    · obtain rfl := Option.some.inj (hn.symm.trans s1)
      obtain ⟨j, hj, e3, v1, v2⟩ := h.coh _ _ _ k2 k1.live k3
      exact ⟨j, hj, g.back c j h1 h2 hj e3, by rw [g.wallOld _ k4, w3]; exact v1, by rw [g.wallOld _ k4, w1]; exact v2⟩
    · obtain rfl := Option.some.inj (hn.symm.trans s2)
      have hm := ringNext_mem h1 h2
      obtain ⟨s1', s2', s3'⟩ := g.slots _ hm.1 hm.2.1
      obtain ⟨w1', w2', w3'⟩ := g.walls _ hm.1 hm.2.1
      have hlt := (g.edIn _ hm.1 hm.2.1).2.1
      refine ⟨((ed (ringNext P0.num R.num c)).2 + 2) % 3, by omega, ?_, ?_, ?_⟩
      · rw [s3', (ringNext_iff h1 h2 hm.1 hm.2.1).1 rfl]
      · rw [w3', show (((ed c).2 + 1) % 3 + 2) % 3 = (ed c).2 by omega, w1, g.ring c h1 h2]
      · rw [show (((ed (ringNext P0.num R.num c)).2 + 2) % 3 + 2) % 3 = ((ed (ringNext P0.num R.num c)).2 + 1) % 3 by omega, w2', w2]
    · obtain rfl := Option.some.inj (hn.symm.trans s3)
      have hm := ringPrev_mem h1 h2
      obtain ⟨s1', s2', s3'⟩ := g.slots _ hm.1 hm.2.1
      obtain ⟨w1', w2', w3'⟩ := g.walls _ hm.1 hm.2.1
      have hlt := (g.edIn _ hm.1 hm.2.1).2.1
      have hnx := (ringNext_iff hm.1 hm.2.1 h1 h2).2 rfl
      have hr := g.ring _ hm.1 hm.2.1
      rw [hnx] at s2' hr
      refine ⟨((ed (ringPrev P0.num R.num c)).2 + 1) % 3, by omega, s2', ?_, ?_⟩
      · rw [w2', show (((ed c).2 + 2) % 3 + 2) % 3 = ((ed c).2 + 1) % 3 by omega, w2]
      · rw [show (((ed (ringPrev P0.num R.num c)).2 + 1) % 3 + 2) % 3 = (ed (ringPrev P0.num R.num c)).2 by omega, w1', w3, hr]

/-- The plane is not yet a wall. -/
theorem Poly.Shape.fresh (h : P0.Shape pl) (hpl : pl (some (Wall.pt t)) = (xo, n)) {c : Nat} (hc : Beyond P0 xo n c) {b i : Nat} (hb : P0.Live b) (hi : i < 3) : P0.wall b i ≠ some (Wall.pt t) := by
  intro e
  obtain ⟨v, hv, hs⟩ := hc
  have := h.le hv hb hi
  unfold hgt at this
  rw [e, hpl] at this
  norm_num at this hs
  linarith

/-- No corner lies on or close to the plane. -/
def Poly.Clear (P0 : Poly) (xo n : Nat → ℝ) : Prop := ∀ c v, P0.pos c = some v → side xo n v > 1e-10 ∨ side xo n v < 0

/-- A new corner and its edge. -/
theorem Trimmed.place (h : P0.Shape pl) (g : Trimmed P0 xo n t R ed far) (hgp : P0.Clear xo n) {k : Nat} (h1 : P0.num ≤ k) (h2 : k < R.num) :
    ∃ xc xd l, P0.pos (ed k).1 = some xc ∧ P0.pos (far k) = some xd ∧ 0 < side xo n xc ∧ side xo n xd < 0 ∧ 0 < l ∧ l < 1 ∧ R.pos k = some (fun x => xc x + l * (xd x - xc x)) ∧ side xo n (fun x => xc x + l * (xd x - xc x)) = 0 := by
  obtain ⟨k1, k2, k3, k4⟩ := g.edIn k h1 h2
  obtain ⟨xc, hxc, b1⟩ := k1
  obtain ⟨xd, hxd, b2⟩ := k4
  have b1' : 0 < side xo n xc := lt_trans (by norm_num) b1
  have b2' : side xo n xd < 0 := (hgp _ _ hxd).resolve_left b2
  obtain ⟨c1, c2, c3⟩ := cutParam_gp b1' b2'
  exact ⟨xc, xd, _, hxc, hxd, b1', b2', c1, c2, g.pos k xc xd h1 h2 hxc hxd, by rw [side_line]; exact c3⟩

/-- A wall of the result is the plane or a wall of a corner that was there. -/
theorem Trimmed.wall_cases (g : Trimmed P0 xo n t R ed far) {b i : Nat} (hb : R.Live b) (hi : i < 3) : R.wall b i = some (Wall.pt t) ∨ ∃ b' i', P0.Live b' ∧ i' < 3 ∧ R.wall b i = P0.wall b' i' := by
  rcases (g.live b).1 hb with hw | ⟨h1, h2⟩
  · exact Or.inr ⟨b, i, hw.live, hi, by rw [g.wallOld b hw]⟩
  · obtain ⟨k1, k2, -⟩ := g.edIn b h1 h2
    obtain ⟨w1, w2, w3⟩ := g.walls b h1 h2
    rcases slot_cover hi k2 with rfl | rfl | rfl
    · exact Or.inr ⟨_, _, k1.live, k2, w1⟩
    · exact Or.inl w2
    · exact Or.inr ⟨_, _, k1.live, by omega, w3⟩

theorem Trimmed.on (h : P0.Shape pl) (g : Trimmed P0 xo n t R ed far) (hgp : P0.Clear xo n) (hpl : pl (some (Wall.pt t)) = (xo, n)) {c i : Nat} {v : Nat → ℝ} (hi : i < 3) (hv : R.pos c = some v) : hgt pl (R.wall c i) v = 0 := by
  rcases (g.live c).1 (live_of_pos hv) with hw | ⟨h1, h2⟩
  · rw [g.wallOld c hw]; exact h.on c v i hi (by rw [← g.posOld c hw]; exact hv)
  · obtain ⟨k1, k2, k3, k4⟩ := g.edIn c h1 h2
    obtain ⟨xc, xd, l, p1, p2, p3, p4, p5, p6, p7, p8⟩ := g.place h hgp h1 h2
    obtain rfl := Option.some.inj (hv.symm.trans p7)
    obtain ⟨w1, w2, w3⟩ := g.walls c h1 h2
    obtain ⟨q1, q2, -⟩ := h.nb k2 k1.live k3 p2
    unfold hgt at q1 q2 ⊢
    rcases slot_cover hi k2 with rfl | rfl | rfl
    · have := h.on _ _ _ k2 p1
      unfold hgt at this
      rw [w1, side_line, this, q1]; ring
    · rw [w2, hpl]; exact p8
    · have := h.on _ _ (((ed c).2 + 2) % 3) (by omega) p1
      unfold hgt at this
      rw [w3, side_line, this, q2]; ring

theorem Trimmed.diff (h : P0.Shape pl) (g : Trimmed P0 xo n t R ed far) (hpl : pl (some (Wall.pt t)) = (xo, n)) {c i j : Nat} (hc : R.Live c) (hi : i < 3) (hj : j < 3) (e : R.wall c i = R.wall c j) : i = j := by
  rcases (g.live c).1 hc with hw | ⟨h1, h2⟩
  · rw [g.wallOld c hw] at e; exact h.diff c i j hw.live hi hj e
  · obtain ⟨k1, k2, k3, k4⟩ := g.edIn c h1 h2
    obtain ⟨w1, w2, w3⟩ := g.walls c h1 h2
    have f1 := h.fresh hpl k1 k1.live k2
    have f2 := h.fresh hpl k1 k1.live (i := ((ed c).2 + 2) % 3) (by omega)
    have f3 : P0.wall (ed c).1 (ed c).2 ≠ P0.wall (ed c).1 (((ed c).2 + 2) % 3) := fun q => by
      have := h.diff _ _ _ k1.live k2 (by omega) q
      omega
    rcases slot_cover hi k2 with rfl | rfl | rfl <;> rcases slot_cover hj k2 with r | r | r
    · exact r.symm
    · rw [r, w1, w2] at e; exact absurd e f1
    · rw [r, w1, w3] at e; exact absurd e f3
    · rw [r, w1, w2] at e; exact absurd e.symm f1
    · exact r.symm
    · rw [r, w2, w3] at e; exact absurd e.symm f2
    · rw [r, w1, w3] at e; exact absurd e.symm f3
    · rw [r, w2, w3] at e; exact absurd e f2
    · exact r.symm

theorem Trimmed.inside (h : P0.Shape pl) (g : Trimmed P0 xo n t R ed far) (hgp : P0.Clear xo n) (hpl : pl (some (Wall.pt t)) = (xo, n)) {c b i : Nat} {v : Nat → ℝ} (hv : R.pos c = some v) (hb : R.Live b) (hi : i < 3) :
    hgt pl (R.wall b i) v < 0 ∨ ∃ j, j < 3 ∧ R.wall b i = R.wall c j := by
  rcases (g.live c).1 (live_of_pos hv) with hw | ⟨h1, h2⟩
  · rw [g.posOld c hw] at hv
    rw [g.wallOld c hw]
    rcases g.wall_cases hb hi with e | ⟨b', i', e1, e2, e3⟩
    · left
      unfold hgt
      rw [e, hpl]
      obtain ⟨v', hv', hs⟩ := hw
      obtain rfl := Option.some.inj (hv.symm.trans hv')
      exact (hgp c v hv).resolve_left hs
    · rw [e3]; exact h.inside c v b' i' hv e1 e2
  · obtain ⟨k1, k2, k3, k4⟩ := g.edIn c h1 h2
    obtain ⟨xc, xd, l, p1, p2, p3, p4, p5, p6, p7, p8⟩ := g.place h hgp h1 h2
    obtain rfl := Option.some.inj (hv.symm.trans p7)
    obtain ⟨w1, w2, w3⟩ := g.walls c h1 h2
    rcases g.wall_cases hb hi with e | ⟨b', i', e1, e2, e3⟩
    · exact Or.inr ⟨_, by omega, e.trans w2.symm⟩
    · rw [e3]
      by_cases hq1 : P0.wall b' i' = P0.wall (ed c).1 (ed c).2
      · exact Or.inr ⟨_, k2, hq1.trans w1.symm⟩
      by_cases hq2 : P0.wall b' i' = P0.wall (ed c).1 (((ed c).2 + 2) % 3)
      · exact Or.inr ⟨_, by omega, hq2.trans w3.symm⟩
      left
      have hxd := h.le p2 e1 e2
      have hxc := h.le p1 e1 e2
      have key : hgt pl (P0.wall b' i') xc < 0 ∨ hgt pl (P0.wall b' i') xd < 0 := by
        rcases h.inside _ _ b' i' p1 e1 e2 with q | ⟨j, hj, q⟩
        · exact Or.inl q
        · rcases slot_cover hj k2 with rfl | rfl | rfl
          · exact absurd q hq1
          · right; rw [q]; exact (h.nb k2 k1.live k3 p2).2.2
          · exact absurd q hq2
      have e : hgt pl (P0.wall b' i') (fun x => xc x + l * (xd x - xc x)) = (1 - l) * hgt pl (P0.wall b' i') xc + l * hgt pl (P0.wall b' i') xd := by
        unfold hgt; rw [side_line]; ring
      rw [e]
      rcases key with q | q
      · have := mul_neg_of_pos_of_neg (show 0 < 1 - l by linarith) q
        have := mul_nonpos_of_nonneg_of_nonpos p5.le hxd
        linarith
      · have := mul_nonpos_of_nonneg_of_nonpos (show 0 ≤ 1 - l by linarith) hxc
        have := mul_neg_of_pos_of_neg p5 q
        linarith

/-- Two new corners on the same walls lie on the same edge. -/
theorem Trimmed.on_edge (h : P0.Shape pl) (g : Trimmed P0 xo n t R ed far) (hgp : P0.Clear xo n) {k : Nat} (h1 : P0.num ≤ k) (h2 : k < R.num) {s' : Nat} {xs' : Nat → ℝ} (hs' : P0.pos s' = some xs')
    (q1 : hgt pl (P0.wall (ed k).1 (ed k).2) xs' = 0) (q2 : hgt pl (P0.wall (ed k).1 (((ed k).2 + 2) % 3)) xs' = 0) :
    ∃ xc xd l, P0.pos (ed k).1 = some xc ∧ P0.pos (far k) = some xd ∧ 0 ≤ l ∧ side xo n xd < side xo n xc ∧ ∀ x, x < 3 → xs' x - xc x = l * (xd x - xc x) := by
  obtain ⟨k1, k2, k3, k4⟩ := g.edIn k h1 h2
  obtain ⟨xc, xd, -, p1, p2, p3, p4, -⟩ := g.place h hgp h1 h2
  obtain ⟨l, x, b, hl, hz⟩ := h.cone p1 (z := xs') fun i hi => h.le hs' k1.live hi
  have hx : x (ed k).2 = xd := by
    obtain ⟨-, e1, e2, -⟩ := hl _ k2
    rw [k3] at e1
    rw [← Option.some.inj e1] at e2
    exact Option.some.inj (e2.symm.trans p2)
  have hz0 : ∀ i, i < 3 → i ≠ (ed k).2 → l i = 0 := fun i hi hne => by
    obtain ⟨-, e1, e2, e3⟩ := hl i hi
    have hneg := (h.nb hi k1.live e1 e2).2.2
    have hr : hgt pl (P0.wall (ed k).1 ((i + 1) % 3)) xs' = 0 := by
      have : (i + 1) % 3 = (ed k).2 ∨ (i + 1) % 3 = ((ed k).2 + 2) % 3 := by omega
      rcases this with r | r <;> rw [r]
      · exact q1
      · exact q2
    rw [hr] at e3
    exact (mul_eq_zero.1 e3).resolve_right hneg.ne
  refine ⟨xc, xd, l (ed k).2, p1, p2, (hl _ k2).1, by linarith, fun y hy => ?_⟩
  rw [hz y hy]
  have hj := k2
  generalize (ed k).2 = j at hx hz0 hj ⊢
  interval_cases j
  · rw [hz0 1 (by omega) (by omega), hz0 2 (by omega) (by omega), hx]; ring
  · rw [hz0 0 (by omega) (by omega), hz0 2 (by omega) (by omega), hx]; ring
  · rw [hz0 0 (by omega) (by omega), hz0 1 (by omega) (by omega), hx]; ring

theorem Trimmed.inj (h : P0.Shape pl) (g : Trimmed P0 xo n t R ed far) (hgp : P0.Clear xo n) (hpl : pl (some (Wall.pt t)) = (xo, n)) {c d : Nat} (hc : R.Live c) (hd : R.Live d)
    (hw : ∀ i, i < 3 → ∃ j, j < 3 ∧ R.wall c i = R.wall d j) : c = d := by
  have fr : ∀ k, P0.num ≤ k → k < R.num → ∀ b i, P0.Live b → i < 3 → P0.wall b i ≠ some (Wall.pt t) := fun k h1 h2 b i hb hi => h.fresh hpl (g.edIn k h1 h2).1 hb hi
  rcases (g.live c).1 hc with hwc | ⟨h1, h2⟩
  · rcases (g.live d).1 hd with hwd | ⟨h3, h4⟩
    · rw [g.wallOld c hwc, g.wallOld d hwd] at hw
      exact h.inj c d hwc.live hwd.live hw
    · exfalso
      obtain ⟨k1, k2, -⟩ := g.edIn d h3 h4
      obtain ⟨w1, w2, w3⟩ := g.walls d h3 h4
      have : c = (ed d).1 := h.inj c _ hwc.live k1.live fun i hi => by
        obtain ⟨j, hj, e⟩ := hw i hi
        rw [g.wallOld c hwc] at e
        rcases slot_cover hj k2 with rfl | rfl | rfl
        · exact ⟨_, k2, e.trans w1⟩
        · exact absurd (e.trans w2) (fr d h3 h4 c i hwc.live hi)
        · exact ⟨_, by omega, e.trans w3⟩
      exact k1.not_within (this ▸ hwc)
  · obtain ⟨k1, k2, -⟩ := g.edIn c h1 h2
    obtain ⟨w1, w2, w3⟩ := g.walls c h1 h2
    rcases (g.live d).1 hd with hwd | ⟨h3, h4⟩
    · exfalso
      obtain ⟨j, hj, e⟩ := hw (((ed c).2 + 1) % 3) (by omega)
      rw [w2, g.wallOld d hwd] at e
      exact fr c h1 h2 d j hwd.live hj e.symm
    · obtain ⟨k1', k2', -⟩ := g.edIn d h3 h4
      obtain ⟨w1', w2', w3'⟩ := g.walls d h3 h4
      have edge : ∀ i, i < 3 → R.wall c i ≠ some (Wall.pt t) → R.wall c i = P0.wall (ed d).1 (ed d).2 ∨ R.wall c i = P0.wall (ed d).1 (((ed d).2 + 2) % 3) := fun i hi hne => by
        obtain ⟨j, hj, e⟩ := hw i hi
        rcases slot_cover hj k2' with rfl | rfl | rfl
        · exact Or.inl (e.trans w1')
        · exact absurd (e.trans w2') hne
        · exact Or.inr (e.trans w3')
      have a1 := edge _ k2 (by rw [w1]; exact fr c h1 h2 _ _ k1.live k2)
      have a2 := edge (((ed c).2 + 2) % 3) (by omega) (by rw [w3]; exact fr c h1 h2 _ _ k1.live (by omega))
      rw [w1] at a1
      rw [w3] at a2
      have a12 : P0.wall (ed c).1 (ed c).2 ≠ P0.wall (ed c).1 (((ed c).2 + 2) % 3) := fun q => by
        have := h.diff _ _ _ k1.live k2 (by omega) q
        omega
      have b1 : P0.wall (ed d).1 (ed d).2 = P0.wall (ed c).1 (ed c).2 ∨ P0.wall (ed d).1 (ed d).2 = P0.wall (ed c).1 (((ed c).2 + 2) % 3) := by
        rcases a1 with a1 | a1
        · exact Or.inl a1.symm
        · rcases a2 with a2 | a2
          · exact Or.inr a2.symm
          · exact absurd (a1.trans a2.symm) a12
      have b2 : P0.wall (ed d).1 (((ed d).2 + 2) % 3) = P0.wall (ed c).1 (ed c).2 ∨ P0.wall (ed d).1 (((ed d).2 + 2) % 3) = P0.wall (ed c).1 (((ed c).2 + 2) % 3) := by
        rcases a2 with a2 | a2
        · rcases a1 with a1 | a1
          · exact absurd (a1.trans a2.symm) a12
          · exact Or.inl a1.symm
        · exact Or.inr a2.symm
      obtain ⟨u, hu⟩ := Option.ne_none_iff_exists'.1 k1.live
      obtain ⟨u', hu'⟩ := Option.ne_none_iff_exists'.1 k1'.live
      have o1 := h.on _ _ _ k2 hu
      have o2 := h.on _ _ (((ed c).2 + 2) % 3) (by omega) hu
      have o1' := h.on _ _ _ k2' hu'
      have o2' := h.on _ _ (((ed d).2 + 2) % 3) (by omega) hu'
      obtain ⟨xc, xd, l, p1, p2, p3, p4, p5⟩ := g.on_edge h hgp h1 h2 hu' (by rcases a1 with q | q <;> rw [q] <;> assumption) (by rcases a2 with q | q <;> rw [q] <;> assumption)
      obtain ⟨yc, yd, l', r1, r2, r3, r4, r5⟩ := g.on_edge h hgp h3 h4 hu (by rcases b1 with q | q <;> rw [q] <;> assumption) (by rcases b2 with q | q <;> rw [q] <;> assumption)
      obtain rfl := Option.some.inj (hu.symm.trans p1)
      obtain rfl := Option.some.inj (hu'.symm.trans r1)
      have s1 : side xo n u' - side xo n u = l * (side xo n xd - side xo n u) := by
        rw [side_diff, side_diff, p5 0 (by omega), p5 1 (by omega), p5 2 (by omega)]; ring
      have s2 : side xo n u - side xo n u' = l' * (side xo n yd - side xo n u') := by
        rw [side_diff, side_diff, r5 0 (by omega), r5 1 (by omega), r5 2 (by omega)]; ring
      have m1 := mul_nonpos_of_nonneg_of_nonpos p3 (show side xo n xd - side xo n u ≤ 0 by linarith)
      have m2 := mul_nonpos_of_nonneg_of_nonpos r3 (show side xo n yd - side xo n u' ≤ 0 by linarith)
      have hl0 : l = 0 := (mul_eq_zero.1 (show l * (side xo n xd - side xo n u) = 0 by linarith)).resolve_right (by linarith)
      have hsame : ∀ x, x < 3 → u' x = u x := fun x hx => by have := p5 x hx; rw [hl0] at this; linarith
      have hss : (ed c).1 = (ed d).1 := h.inj _ _ k1.live k1'.live fun i hi => by
        have hz : hgt pl (P0.wall (ed c).1 i) u' = 0 := by
          have := h.on _ _ i hi hu
          unfold hgt side at this ⊢
          rw [hsame 0 (by omega), hsame 1 (by omega), hsame 2 (by omega)]; exact this
        rcases h.inside _ _ (ed c).1 i hu' k1.live hi with q | q
        · rw [hz] at q; exact absurd q (lt_irrefl _)
        · exact q
      refine g.edInj c d h1 h2 h3 h4 (Prod.ext hss ?_)
      rw [← hss] at a1 a2
      have c1 : (ed c).2 = (ed d).2 ∨ (ed c).2 = ((ed d).2 + 2) % 3 := a1.imp (h.diff _ _ _ k1.live k2 k2') (h.diff _ _ _ k1.live k2 (by omega))
      have c2 : ((ed c).2 + 2) % 3 = (ed d).2 ∨ ((ed c).2 + 2) % 3 = ((ed d).2 + 2) % 3 := a2.imp (h.diff _ _ _ k1.live (by omega) k2') (h.diff _ _ _ k1.live (by omega) (by omega))
      omega

/-- Every edge is counted twice. -/
theorem Poly.Shape.handshake (h : P0.Shape pl) {f : Nat → Nat → ZMod 2} (hf : EdgeFun P0 f) : ∑ v ∈ (Finset.range P0.num).filter (fun v => P0.Live v), (f v 0 + f v 1 + f v 2) = 0 := by
  have e : ∑ v ∈ (Finset.range P0.num).filter (fun v => P0.Live v), (f v 0 + f v 1 + f v 2) = ∑ p ∈ ((Finset.range P0.num).filter (fun v => P0.Live v)) ×ˢ Finset.range 3, f p.1 p.2 := by
    rw [Finset.sum_product]
    refine Finset.sum_congr rfl fun v _ => ?_
    rw [Finset.sum_range_succ, Finset.sum_range_succ, Finset.sum_range_one]
  rw [e]
  have hm : ∀ p : Nat × Nat, ∃ q : Nat × Nat, P0.Live p.1 → p.2 < 3 → P0.nbr p.1 p.2 = some q.1 ∧ q.2 < 3 ∧ P0.nbr q.1 q.2 = some p.1 ∧ P0.Live q.1 ∧ q.1 ≠ p.1 := fun p => by
    by_cases hp : P0.Live p.1 ∧ p.2 < 3
    · obtain ⟨d, e1, e2, e3⟩ := h.wf.out p.1 p.2 hp.2 hp.1
      obtain ⟨j, hj, e4, -⟩ := h.coh p.1 p.2 d hp.2 hp.1 e1
      exact ⟨(d, j), fun _ _ => ⟨e1, hj, e4, e2, e3⟩⟩
    · exact ⟨p, fun g1 g2 => absurd ⟨g1, g2⟩ hp⟩
  choose mate hmate using hm
  have hin : ∀ {p : Nat × Nat}, p ∈ ((Finset.range P0.num).filter (fun v => P0.Live v)) ×ˢ Finset.range 3 ↔ P0.Live p.1 ∧ p.2 < 3 := fun {p} => by
    rw [Finset.mem_product, Finset.mem_filter, Finset.mem_range, Finset.mem_range]
    exact ⟨fun g => ⟨g.1.2, g.2⟩, fun g => ⟨⟨h.wf.fin _ g.1, g.1⟩, g.2⟩⟩
  refine Finset.sum_involution (fun p _ => mate p) (fun p hp => ?_) (fun p hp _ q => ?_) (fun p hp => ?_) (fun p hp => ?_)
  · obtain ⟨g1, g2⟩ := hin.1 hp
    obtain ⟨m1, m2, m3, m4, m5⟩ := hmate p g1 g2
    rw [hf p.1 p.2 _ _ g2 m2 g1 m1 m3, char_two]
  · obtain ⟨g1, g2⟩ := hin.1 hp
    exact (hmate p g1 g2).2.2.2.2 (by rw [q])
  · obtain ⟨g1, g2⟩ := hin.1 hp
    obtain ⟨m1, m2, m3, m4, m5⟩ := hmate p g1 g2
    exact hin.2 ⟨m4, m2⟩
  · obtain ⟨g1, g2⟩ := hin.1 hp
    obtain ⟨m1, m2, m3, m4, m5⟩ := hmate p g1 g2
    obtain ⟨n1, n2, n3, n4, n5⟩ := hmate _ m4 m2
    have e1 : (mate (mate p)).1 = p.1 := Option.some.inj (n1.symm.trans m3)
    refine Prod.ext e1 (h.simple p.1 _ _ n2 g2 g1 ?_)
    rw [m1, ← e1, n3]

/-- Even values at all corners but one are even at that one as well. -/
theorem Poly.Shape.even_all (h : P0.Shape pl) {f : Nat → Nat → ZMod 2} (hf : EdgeFun P0 f) {r : Nat} (hr : ∀ v, P0.Live v → v ≠ r → f v 0 + f v 1 + f v 2 = 0) : ∀ v, P0.Live v → f v 0 + f v 1 + f v 2 = 0 := by
  intro v hv
  by_cases hvr : v = r
  · subst hvr
    have := h.handshake hf
    rwa [Finset.sum_eq_single v (fun b hb hne => hr b (Finset.mem_filter.1 hb).2 hne) fun g => absurd (Finset.mem_filter.2 ⟨Finset.mem_range.2 (h.wf.fin v hv), hv⟩) g] at this
  · exact hr v hv hvr

/-- Values on the edges can be made even with edges between corners that go. -/
theorem Trimmed.correct (h : P0.Shape pl) (g : Trimmed P0 xo n t R ed far) {f : Nat → Nat → ZMod 2} (hf : EdgeFun P0 f) (hW : ∀ v, Within P0 xo n v → f v 0 + f v 1 + f v 2 = 0) :
    ∃ f', EdgeFun P0 f' ∧ (∀ v, P0.Live v → f' v 0 + f' v 1 + f' v 2 = 0) ∧ ∀ v i, (v, i) ∉ Inward P0 xo n → f' v i = f v i := by
  obtain ⟨r, hr, hj⟩ := g.join
  have key : ∀ B : Finset Nat, (∀ s ∈ B, Beyond P0 xo n s) → ∃ f', EdgeFun P0 f' ∧ (∀ v, P0.Live v → v ≠ r → f' v 0 + f' v 1 + f' v 2 = if v ∈ B then 0 else f v 0 + f v 1 + f v 2) ∧ ∀ v i, (v, i) ∉ Inward P0 xo n → f' v i = f v i := by
    intro B
    induction B using Finset.induction_on with
    | empty => exact fun _ => ⟨f, hf, fun v _ _ => by simp, fun _ _ _ => rfl⟩
    | insert s B hs ih =>
      intro hB
      obtain ⟨f', i1, i2, i3⟩ := ih fun a ha => hB a (Finset.mem_insert_of_mem ha)
      by_cases hz : f s 0 + f s 1 + f s 2 = 0
      · refine ⟨f', i1, fun v hv hne => ?_, i3⟩
        rw [i2 v hv hne]
        by_cases hvs : v = s
        · subst hvs; simp [hs, hz]
        · simp [hvs]
      · have hz1 : f s 0 + f s 1 + f s 2 = 1 := by
          have : ∀ x : ZMod 2, x ≠ 0 → x = 1 := by decide
          exact this _ hz
        obtain ⟨q, q1, q2, q3⟩ := hj s (hB s (Finset.mem_insert_self _ _))
        refine ⟨fun v i => f' v i + q v i, fun a i b j hi hjj ha e1 e2 => by simp only [i1 a i b j hi hjj ha e1 e2, q1 a i b j hi hjj ha e1 e2], fun v hv hne => ?_, fun v i hvi => ?_⟩
        · have e : f' v 0 + q v 0 + (f' v 1 + q v 1) + (f' v 2 + q v 2) = (f' v 0 + f' v 1 + f' v 2) + (q v 0 + q v 1 + q v 2) := by ring
          simp only [e, q3, i2 v hv hne, if_neg hne, add_zero]
          by_cases hvs : v = s
          · subst hvs
            rw [if_neg hs, if_pos rfl, if_pos (Finset.mem_insert_self _ _), hz1]; decide
          · rw [if_neg hvs, add_zero]
            simp [hvs]
        · have : q v i = 0 := by
            by_contra hq
            exact hvi (q2 v i hq)
          simp only [this, add_zero, i3 v i hvi]
  obtain ⟨f', i1, i2, i3⟩ := key ((Finset.range P0.num).filter fun v => Beyond P0 xo n v) fun s hs => (Finset.mem_filter.1 hs).2
  refine ⟨f', i1, h.even_all i1 (r := r) fun v hv hne => ?_, i3⟩
  rw [i2 v hv hne]
  split_ifs with hb
  · rfl
  · exact hW v ((live_cases hv).resolve_left fun q => hb (Finset.mem_filter.2 ⟨Finset.mem_range.2 (h.wf.fin v hv), q⟩))

/-- Every even set of edges of the result is a boundary. -/
theorem Trimmed.fill (h : P0.Shape pl) (g : Trimmed P0 xo n t R ed far) (hfr : ∀ b i, P0.Live b → i < 3 → P0.wall b i ≠ some (Wall.pt t)) : R.Fill := by
  intro f hf hev
  have hex : ∀ v i, ∃ x : ZMod 2, (Within P0 xo n v → x = f v i) ∧ (∀ k, P0.num ≤ k → k < R.num → ed k = (v, i) → x = f k i) ∧ ((v, i) ∈ Inward P0 xo n → x = 0) := fun v i => by
    by_cases hk : ∃ k, P0.num ≤ k ∧ k < R.num ∧ ed k = (v, i)
    · obtain ⟨k, h1, h2, e⟩ := hk
      obtain ⟨k1, k2, k3, k4⟩ := g.edIn k h1 h2
      rw [e] at k1 k2 k3
      refine ⟨f k i, fun q => absurd q k1.not_within, fun l h3 h4 e' => ?_, fun q => absurd k4 (q.2 _ k3).not_within⟩
      rw [g.edInj k l h1 h2 h3 h4 (e.trans e'.symm)]
    · by_cases hw : Within P0 xo n v
      · exact ⟨f v i, fun _ => rfl, fun k h1 h2 e => absurd ⟨k, h1, h2, e⟩ hk, fun q => absurd hw q.1.not_within⟩
      · exact ⟨0, fun q => absurd q hw, fun k h1 h2 e => absurd ⟨k, h1, h2, e⟩ hk, fun _ => rfl⟩
  choose b b1 b2 b3 using hex
  have hmix : ∀ c i d j, i < 3 → j < 3 → P0.nbr c i = some d → P0.nbr d j = some c → Within P0 xo n c → Beyond P0 xo n d → b c i = b d j := fun c i d j hi hj e1 e2 hc hd => by
    obtain ⟨k, h1, h2, ek⟩ := g.edSurj d j c hd hj e2 hc
    have hfk : far k = c := by
      have := (g.edIn k h1 h2).2.2.1
      rw [ek] at this
      exact Option.some.inj (this.symm.trans e2)
    have hbk := g.back k i h1 h2 hi (by rw [hfk, ek]; exact e1)
    rw [hfk] at hbk
    have hs := (g.slots k h1 h2).1
    rw [ek, hfk] at hs
    rw [b1 c i hc, b2 d j k h1 h2 ek]
    exact hf c i k j hi hj ((g.live c).2 (Or.inl hc)) hbk hs
  have hb : EdgeFun P0 b := by
    intro c i d j hi hj hc e1 e2
    obtain ⟨d', q1, hd, -⟩ := h.wf.out c i hi hc
    obtain rfl := Option.some.inj (e1.symm.trans q1)
    rcases live_cases (xo := xo) (n := n) hc with hcB | hcW
    · rcases live_cases (xo := xo) (n := n) hd with hdB | hdW
      · rw [b3 c i ⟨hcB, fun a ha => by rw [← Option.some.inj (e1.symm.trans ha)]; exact hdB⟩, b3 d j ⟨hdB, fun a ha => by rw [← Option.some.inj (e2.symm.trans ha)]; exact hcB⟩]
      · exact (hmix d j c i hj hi e2 e1 hdW hcB).symm
    · rcases live_cases (xo := xo) (n := n) hd with hdB | hdW
      · exact hmix c i d j hi hj e1 e2 hcW hdB
      · rw [b1 c i hcW, b1 d j hdW]
        exact hf c i d j hi hj ((g.live c).2 (Or.inl hcW)) (g.nbrOld c i d hi hcW e1 hdW) (g.nbrOld d j c hj hdW e2 hcW)
  obtain ⟨b', c1, c2, c3⟩ := g.correct h hb fun v hv => by
    rw [b1 v 0 hv, b1 v 1 hv, b1 v 2 hv]
    exact hev v ((g.live v).2 (Or.inl hv))
  obtain ⟨χ0, hχ⟩ := h.fill b' c1 c2
  have hold : ∀ c i, i < 3 → Within P0 xo n c → f c i = χ0 (P0.wall c i) + χ0 (P0.wall c ((i + 2) % 3)) := fun c i hi hc => by
    rw [← hχ c i hi hc.live, c3 c i fun q => q.1.not_within hc, b1 c i hc]
  have hcut : ∀ k, P0.num ≤ k → k < R.num → f k (ed k).2 = χ0 (P0.wall (ed k).1 (ed k).2) + χ0 (P0.wall (ed k).1 (((ed k).2 + 2) % 3)) := fun k h1 h2 => by
    obtain ⟨k1, k2, k3, k4⟩ := g.edIn k h1 h2
    rw [← hχ _ _ k2 k1.live, c3 _ _ fun q => (q.2 _ k3).not_within k4, b2 _ _ k h1 h2 rfl]
  have hsum : ∀ k, P0.num ≤ k → k < R.num → f k (ed k).2 + f k (((ed k).2 + 1) % 3) + f k (((ed k).2 + 2) % 3) = 0 := fun k h1 h2 => by
    have e := hev k ((g.live k).2 (Or.inr ⟨h1, h2⟩))
    have hj := (g.edIn k h1 h2).2.1
    generalize (ed k).2 = j at hj ⊢
    have perm : ∀ x y z : ZMod 2, x + y + z = 0 → y + z + x = 0 ∧ z + x + y = 0 := by decide
    interval_cases j
    · exact e
    · exact (perm _ _ _ e).1
    · exact (perm _ _ _ e).2
  have hnext : ∀ k, P0.num ≤ k → k < R.num → f k (((ed k).2 + 1) % 3) = f (ringNext P0.num R.num k) (((ed (ringNext P0.num R.num k)).2 + 2) % 3) := fun k h1 h2 => by
    have hm := ringNext_mem h1 h2
    refine hf _ _ _ _ (by omega) (by omega) ((g.live k).2 (Or.inr ⟨h1, h2⟩)) (g.slots k h1 h2).2.1 ?_
    rw [(g.slots _ hm.1 hm.2.1).2.2, (ringNext_iff h1 h2 hm.1 hm.2.1).1 rfl]
  obtain ⟨τ, hτ⟩ : ∃ τ : ZMod 2, ∀ k, P0.num ≤ k → k < R.num → f k (((ed k).2 + 1) % 3) + χ0 (P0.wall (ed k).1 (ed k).2) = τ := by
    by_cases hne : P0.num < R.num
    · refine ⟨_, ring_closed (p := fun k => f k (((ed k).2 + 1) % 3) + χ0 (P0.wall (ed k).1 (ed k).2) = f P0.num (((ed P0.num).2 + 1) % 3) + χ0 (P0.wall (ed P0.num).1 (ed P0.num).2)) (fun k h1 h2 hp => ?_) (le_refl _) hne rfl⟩
      have hm := ringNext_mem h1 h2
      have e1 := hcut _ hm.1 hm.2.1
      have e2 := hsum _ hm.1 hm.2.1
      have e3 := hnext k h1 h2
      have e4 := g.ring k h1 h2
      rw [← hp, e3, e4]
      rw [e1] at e2
      have alg : ∀ p q x y : ZMod 2, p + q + x + y = 0 → x + p = y + q := by decide
      exact alg _ _ _ _ e2
    · exact ⟨0, fun k h1 h2 => by omega⟩
  refine ⟨fun w => if w = some (Wall.pt t) then τ else χ0 w, fun c i hi hc => ?_⟩
  rcases (g.live c).1 hc with hw | ⟨h1, h2⟩
  · simp only [g.wallOld c hw, if_neg (hfr c i hw.live hi), if_neg (hfr c ((i + 2) % 3) hw.live (by omega))]
    exact hold c i hi hw
  · obtain ⟨k1, k2, k3, k4⟩ := g.edIn c h1 h2
    obtain ⟨w1, w2, w3⟩ := g.walls c h1 h2
    have f1 := hfr _ _ k1.live k2
    have f2 := hfr _ (((ed c).2 + 2) % 3) k1.live (by omega)
    have e1 := hcut c h1 h2
    have e2 := hsum c h1 h2
    have e3 := hτ c h1 h2
    rcases slot_cover hi k2 with rfl | rfl | rfl
    · simp only [w1, w3, if_neg f1, if_neg f2]
      exact e1
    · rw [show (((ed c).2 + 1) % 3 + 2) % 3 = (ed c).2 by omega]
      simp only [w1, w2, if_neg f1, if_true]
      rw [← e3]
      have alg : ∀ p q : ZMod 2, p = p + q + q := by decide
      exact alg _ _
    · rw [show (((ed c).2 + 2) % 3 + 2) % 3 = ((ed c).2 + 1) % 3 by omega]
      simp only [w3, w2, if_neg f2, if_true]
      rw [← e3]
      rw [e1] at e2
      have alg : ∀ p q x y : ZMod 2, p + q + x + y = 0 → y = q + (x + p) := by decide
      exact alg _ _ _ _ e2

/-- **The polytope cut with a plane.** -/
theorem Trimmed.shape (h : P0.Shape pl) (g : Trimmed P0 xo n t R ed far) (hgp : P0.Clear xo n) (hpl : pl (some (Wall.pt t)) = (xo, n)) : R.Shape pl := by
  obtain ⟨r, hr, -⟩ := g.join
  exact ⟨g.wf, g.coh h, fun _ _ _ hi hv => g.on h hgp hpl hi hv, fun _ _ _ hc hi hj e => g.diff h hpl hc hi hj e, fun _ _ _ _ hv hb hi => g.inside h hgp hpl hv hb hi, fun _ _ hc hd hw => g.inj h hgp hpl hc hd hw,
    g.fill h fun b i hb hi => h.fresh hpl hr hb hi⟩

end

end VoroCrust
