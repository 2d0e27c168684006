import Verif.Props.TrimLimit

/-!
# Limits of polytopes

When a plane goes exactly through corners, `trim_vertex` leaves several corners at one place.  The graph of corners is then that of a limit of polytopes: the planes of the walls are moved outward a little.
-/

namespace VoroCrust

open Classical Filter Topology

/-- The planes moved along their normals. -/
noncomputable def shiftPl (pl : Option Wall → (Nat → ℝ) × (Nat → ℝ)) (δ : Option Wall → ℝ) (w : Option Wall) : (Nat → ℝ) × (Nat → ℝ) := (fun d => (pl w).1 d + δ w * (pl w).2 d, (pl w).2)

/-- The square of the length of a normal. -/
def normSq3 (n : Nat → ℝ) : ℝ := n 0 * n 0 + n 1 * n 1 + n 2 * n 2

theorem normSq3_nonneg (n : Nat → ℝ) : 0 ≤ normSq3 n := by unfold normSq3; nlinarith [mul_self_nonneg (n 0), mul_self_nonneg (n 1), mul_self_nonneg (n 2)]

theorem side_shift (xo n z : Nat → ℝ) (s : ℝ) : side (fun d => xo d + s * n d) n z = side xo n z - s * normSq3 n := by unfold side normSq3; ring

variable {pl : Option Wall → (Nat → ℝ) × (Nat → ℝ)} {P : Poly}

theorem hgt_shift (δ : Option Wall → ℝ) (w : Option Wall) (z : Nat → ℝ) : hgt (shiftPl pl δ) w z = hgt pl w z - δ w * normSq3 (pl w).2 := side_shift _ _ _ _

theorem shift_zero : shiftPl pl (fun _ => 0) = pl := by
  funext w
  simp [shiftPl]

/-- The graph of corners is that of polytopes as near as one likes, with walls moved outward. -/
def Poly.Weak (pl : Option Wall → (Nat → ℝ) × (Nat → ℝ)) (P : Poly) : Prop :=
  ∃ (Q : Nat → Poly) (δ : Nat → Option Wall → ℝ), Near P Q ∧ (∀ᶠ k in atTop, (Q k).Shape (shiftPl pl (δ k))) ∧ (∀ k w, 0 ≤ δ k w) ∧ ∀ w, Tendsto (fun k => δ k w) atTop (𝓝 0)

theorem Poly.Shape.weak (h : P.Shape pl) : P.Weak pl :=
  ⟨fun _ => P, fun _ _ => 0, ⟨Eventually.of_forall fun _ => ⟨rfl, rfl, rfl, rfl, fun _ => Iff.rfl⟩, fun c v hv d => by rw [posAt_eq hv]; exact tendsto_const_nhds⟩,
    Eventually.of_forall fun _ => by rw [shift_zero]; exact h, fun _ _ => le_refl _, fun _ => tendsto_const_nhds⟩

theorem Twin.alive {Q : Poly} (h : Twin P Q) (c : Nat) : Q.Live c ↔ P.Live c := not_congr (h.live c)

theorem Twin.wf {Q : Poly} (h : Twin P Q) (g : Q.WF) : P.WF := by
  have hcnt : ∀ c d, Q.cnt c d = P.cnt c d := fun c d => cnt_congr (fun i _ => by rw [h.nbr]) d
  refine ⟨by rw [← h.num, ← h.cap]; exact g.cap, fun c hc => by rw [← h.num]; exact g.fin c ((h.alive c).2 hc), fun c i hi hc => ?_, fun c i hc => by rw [← h.nbr]; exact g.dead c i fun q => hc ((h.alive c).1 q),
    fun c i hi hc => by rw [← h.wall]; exact g.wall c i hi ((h.alive c).2 hc), fun c d hc hd => by rw [← hcnt, ← hcnt]; exact g.sym c d ((h.alive c).2 hc) ((h.alive d).2 hd), fun A hA => ?_⟩
  · obtain ⟨d, e1, e2, e3⟩ := g.out c i hi ((h.alive c).2 hc)
    exact ⟨d, by rw [← h.nbr]; exact e1, (h.alive d).1 e2, e3⟩
  · have := g.bridge A fun c hc => (h.alive c).2 (hA c hc)
    have e : ∀ c, Q.leave A c = P.leave A c := fun c => by unfold Poly.leave; rw [h.nbr]
    simpa only [e] using this

theorem Poly.Weak.wf (h : P.Weak pl) : P.WF := by
  obtain ⟨Q, δ, hn, hs, -, -⟩ := h
  obtain ⟨k, h1, h2⟩ := (hn.twin.and hs).exists
  exact h1.wf h2.wf

theorem Poly.Weak.diff (h : P.Weak pl) {c i j : Nat} (hc : P.Live c) (hi : i < 3) (hj : j < 3) (e : P.wall c i = P.wall c j) : i = j := by
  obtain ⟨Q, δ, hn, hs, -, -⟩ := h
  obtain ⟨k, h1, h2⟩ := (hn.twin.and hs).exists
  exact h2.diff c i j ((h1.alive c).2 hc) hi hj (by rw [h1.wall]; exact e)

theorem hgt_tendsto {Q : Nat → Poly} {δ : Nat → Option Wall → ℝ} (hn : Near P Q) (hd : ∀ w, Tendsto (fun k => δ k w) atTop (𝓝 0)) (w : Option Wall) {c : Nat} {v : Nat → ℝ} (hv : P.pos c = some v) :
    Tendsto (fun k => hgt (shiftPl pl (δ k)) w (posAt (Q k) c)) atTop (𝓝 (hgt pl w v)) := by
  simp only [hgt_shift]
  have h1 : Tendsto (fun k => hgt pl w (posAt (Q k) c)) atTop (𝓝 (hgt pl w v)) := hn.side (xo := (pl w).1) (n := (pl w).2) (y := fun _ => (pl w).1) (fun d => tendsto_const_nhds) hv
  have h2 := h1.sub ((hd w).mul_const (normSq3 (pl w).2))
  simpa using h2

theorem Poly.Weak.on (h : P.Weak pl) {c i : Nat} {v : Nat → ℝ} (hi : i < 3) (hv : P.pos c = some v) : hgt pl (P.wall c i) v = 0 := by
  obtain ⟨Q, δ, hn, hs, -, hd⟩ := h
  refine tendsto_nhds_unique (hgt_tendsto hn hd (P.wall c i) hv) (tendsto_const_nhds.congr' ?_)
  refine (hn.twin.and hs).mono fun k hk => ?_
  have := hk.2.on c _ i hi (hk.1.pos hv)
  rw [hk.1.wall] at this
  exact this.symm

theorem Poly.Weak.le (h : P.Weak pl) {c b i : Nat} {v : Nat → ℝ} (hv : P.pos c = some v) (hb : P.Live b) (hi : i < 3) : hgt pl (P.wall b i) v ≤ 0 := by
  obtain ⟨Q, δ, hn, hs, -, hd⟩ := h
  refine le_of_tendsto (hgt_tendsto hn hd (P.wall b i) hv) ?_
  refine (hn.twin.and hs).mono fun k hk => ?_
  have := hk.2.le (hk.1.pos hv) ((hk.1.alive b).2 hb) hi
  rwa [hk.1.wall] at this

/-- A corner is the only common point of its three walls. -/
theorem Poly.Shape.only (h : P.Shape pl) {c : Nat} {u z : Nat → ℝ} (hu : P.pos c = some u) (hz : ∀ i, i < 3 → hgt pl (P.wall c i) z = 0) : ∀ k, k < 3 → z k = u k := by
  obtain ⟨l, x, b, hl, hcomb⟩ := h.cone hu (z := z) fun i hi => (hz i hi).le
  have hl0 : ∀ i, i < 3 → l i = 0 := fun i hi => by
    obtain ⟨-, h2, h3, h4⟩ := hl i hi
    rw [hz _ (by omega)] at h4
    exact (mul_eq_zero.1 h4).resolve_right (h.nb hi (live_of_pos hu) h2 h3).2.2.ne
  intro k hk
  have := hcomb k hk
  rw [hl0 0 (by omega), hl0 1 (by omega), hl0 2 (by omega)] at this
  linarith

theorem Poly.Weak.only (h : P.Weak pl) {c : Nat} {u z : Nat → ℝ} (hu : P.pos c = some u) (hz : ∀ i, i < 3 → hgt pl (P.wall c i) z = 0) : ∀ k, k < 3 → z k = u k := by
  have hon : ∀ i, i < 3 → hgt pl (P.wall c i) u = 0 := fun i hi => h.on hi hu
  obtain ⟨Q, δ, hn, hs, -, -⟩ := h
  obtain ⟨k, h1, h2⟩ := (hn.twin.and hs).exists
  have key := h2.only (h1.pos hu) (z := fun d => posAt (Q k) c d + (z d - u d)) fun i hi => by
    have a1 := h2.on c _ i hi (h1.pos hu)
    have a2 := hon i hi
    have a3 := hz i hi
    rw [h1.wall] at a1 ⊢
    rw [hgt_shift] at a1 ⊢
    have e : hgt pl (P.wall c i) (fun d => posAt (Q k) c d + (z d - u d)) = hgt pl (P.wall c i) (posAt (Q k) c) + (hgt pl (P.wall c i) z - hgt pl (P.wall c i) u) := by unfold hgt side; ring
    rw [e]
    linarith
  intro d hd
  have := key d hd
  linarith

/-- A point that is not in the hull of the corners is cut off by a plane. -/
theorem solid_or_off (P : Poly) (hfin : ∀ c, P.Live c → c < P.num) (z : Nat → ℝ) : P.Solid z ∨ ∃ (n : Nat → ℝ) (s : ℝ), (∀ c v, P.pos c = some v → side (fun _ => 0) n v < s) ∧ s < side (fun _ => 0) n z := by
  let π : (Nat → ℝ) →ₗ[ℝ] (Fin 3 → ℝ) := LinearMap.pi fun k => LinearMap.proj k.val
  have himg : π '' convexHull ℝ {v | ∃ c, P.pos c = some v} = convexHull ℝ (π '' {v | ∃ c, P.pos c = some v}) := π.image_convexHull _
  by_cases hs : π z ∈ convexHull ℝ (π '' {v | ∃ c, P.pos c = some v})
  · rw [← himg] at hs
    obtain ⟨p, hp, e⟩ := hs
    exact Or.inl ⟨p, hp, fun k hk => congrFun e ⟨k, hk⟩⟩
  right
  have hfin' : (π '' {v | ∃ c, P.pos c = some v}).Finite := by
    refine Set.Finite.image _ ((Finset.finite_toSet ((Finset.range P.num).image fun c => (P.pos c).getD z)).subset ?_)
    rintro v ⟨c, hc⟩
    rw [Finset.mem_coe, Finset.mem_image]
    exact ⟨c, Finset.mem_range.2 (hfin c (live_of_pos hc)), by rw [hc]; rfl⟩
  have hclosed : IsClosed (convexHull ℝ (π '' {v | ∃ c, P.pos c = some v})) := hfin'.isClosed_convexHull ℝ
  obtain ⟨f, s, hf1, hf2⟩ := geometric_hahn_banach_closed_point (convex_convexHull ℝ _) hclosed hs
  have hform : ∀ v : Nat → ℝ, f (π v) = side (fun _ => 0) (fun k => if hk : k < 3 then f (Pi.single ⟨k, hk⟩ 1) else 0) v := fun v => by
    have e : π v = v 0 • Pi.single (0 : Fin 3) (1 : ℝ) + v 1 • Pi.single (1 : Fin 3) (1 : ℝ) + v 2 • Pi.single (2 : Fin 3) (1 : ℝ) := by
      ext k
      fin_cases k <;> simp [π]
    rw [e, map_add, map_add, map_smul, map_smul, map_smul]
    unfold side
    simp only [smul_eq_mul, sub_zero]
    norm_num
    ring_nf
    rfl
  refine ⟨fun k => if hk : k < 3 then f (Pi.single ⟨k, hk⟩ 1) else 0, s, fun c v hv => ?_, ?_⟩
  · rw [← hform]
    exact hf1 (π v) (subset_convexHull ℝ _ ⟨v, ⟨c, hv⟩, rfl⟩)
  · rw [← hform]; exact hf2

/-- Finitely many corners. -/
theorem Near.eventually_all {Q : Nat → Poly} {p : Nat → Nat → Prop} (hfin : ∀ c, P.Live c → c < P.num) (h : ∀ c, P.Live c → ∀ᶠ k in atTop, p k c) (_ : Near P Q) : ∀ᶠ k in atTop, ∀ c, P.Live c → p k c := by
  have : ∀ᶠ k in atTop, ∀ c ∈ Finset.range P.num, P.Live c → p k c := by
    rw [Filter.eventually_all_finset]
    intro c _
    by_cases hc : P.Live c
    · exact (h c hc).mono fun k hk _ => hk
    · exact Eventually.of_forall fun k q => absurd q hc
  exact this.mono fun k hk c hc => hk c (Finset.mem_range.2 (hfin c hc)) hc

/-- **The limit of polytopes is what its walls bound.** -/
theorem Poly.Weak.solid (h : P.Weak pl) (hne : ∃ c, P.Live c) (z : Nat → ℝ) : P.Solid z ↔ ∀ c i, i < 3 → P.Live c → hgt pl (P.wall c i) z ≤ 0 := by
  constructor
  · exact fun hz _ _ hi hc => hz.le fun _ _ hv => h.le hv hc hi
  · intro hz
    have hwf := h.wf
    rcases solid_or_off P hwf.fin z with g | ⟨n, s, h1, h2⟩
    · exact g
    exfalso
    obtain ⟨Q, δ, hn, hs, hδ, -⟩ := h
    have hev := hn.eventually_all (p := fun k c => side (fun _ => 0) n (posAt (Q k) c) < s) hwf.fin fun c hc => by
      obtain ⟨v, hv⟩ := Option.ne_none_iff_exists'.1 hc
      exact (hn.side (fun d => tendsto_const_nhds) hv).eventually_lt_const (h1 c v hv)
    obtain ⟨k, ⟨k1, k2⟩, k3⟩ := ((hn.twin.and hs).and hev).exists
    have hQ : (Q k).Solid z := by
      obtain ⟨c, hc⟩ := hne
      refine (k2.solid ⟨c, (k1.alive c).2 hc⟩ z).2 fun a i hi ha => ?_
      rw [hgt_shift, k1.wall]
      have := hz a i hi ((k1.alive a).1 ha)
      have := mul_nonneg (hδ k (P.wall a i)) (normSq3_nonneg (pl (P.wall a i)).2)
      linarith
    have := hQ.le (xo := fun _ => 0) (n := n) (B := s) fun c v hv => by
      have hl := (k1.alive c).1 (live_of_pos hv)
      have := k3 c hl
      rw [posAt_eq hv] at this
      exact this.le
    linarith

theorem Poly.Shape.congr {pl' : Option Wall → (Nat → ℝ) × (Nat → ℝ)} (h : P.Shape pl) (e : ∀ c i, P.Live c → i < 3 → pl' (P.wall c i) = pl (P.wall c i)) : P.Shape pl' := by
  have hh : ∀ c i v, P.Live c → i < 3 → hgt pl' (P.wall c i) v = hgt pl (P.wall c i) v := fun c i v hc hi => by unfold hgt; rw [e c i hc hi]
  exact ⟨h.wf, h.coh, fun c v i hi hv => by rw [hh c i v (live_of_pos hv) hi]; exact h.on c v i hi hv, h.diff, fun c v b i hv hb hi => by rw [hh b i v hb hi]; exact h.inside c v b i hv hb hi, h.inj, h.fill⟩

variable {xo n : Nat → ℝ} {t : Nat}

/-- **Cutting the limit of polytopes.** -/
theorem Poly.Weak.trim (h : P.Weak pl) (hpl : pl (some (Wall.pt t)) = (xo, n)) (hgap : ∀ c v, P.pos c = some v → side xo n v ≤ 0 ∨ side xo n v > 1e-10) {c : Nat} {v : Nat → ℝ} (hv : P.pos c = some v) (hs : side xo n v > 1e-10) :
    ∃ R, trimVertex t xo n (P.num + 1) c c P = some R ∧ R.Weak pl ∧ (∀ a u, P.pos a = some u → side xo n u ≤ 0 → R.pos a = some u) ∧ (∀ a u, R.pos a = some u → side xo n u ≤ 0 ∧ ∀ b i, P.Live b → i < 3 → hgt pl (P.wall b i) u ≤ 0) ∧
      ∀ b i, R.Live b → i < 3 → R.wall b i = some (Wall.pt t) ∨ ∃ b' i', P.Live b' ∧ i' < 3 ∧ R.wall b i = P.wall b' i' := by
  have hfresh : ∀ b i, P.Live b → i < 3 → P.wall b i ≠ some (Wall.pt t) := fun b i hb hi q => by
    have := h.le hv hb hi
    rw [q] at this
    unfold hgt at this
    rw [hpl] at this
    norm_num at this hs
    linarith
  have hwf := h.wf
  have hnn : 0 < normSq3 n := by
    refine lt_of_le_of_ne (normSq3_nonneg n) fun q => ?_
    unfold normSq3 at q
    have n0 : n 0 = 0 := by nlinarith [mul_self_nonneg (n 0), mul_self_nonneg (n 1), mul_self_nonneg (n 2)]
    have n1 : n 1 = 0 := by nlinarith [mul_self_nonneg (n 0), mul_self_nonneg (n 1), mul_self_nonneg (n 2)]
    have n2 : n 2 = 0 := by nlinarith [mul_self_nonneg (n 0), mul_self_nonneg (n 1), mul_self_nonneg (n 2)]
    unfold side at hs
    rw [n0, n1, n2] at hs
    norm_num at hs
  obtain ⟨Q, δ, hn, hsh, hδ, hδ0⟩ := h
  let ε : Nat → ℝ := fun k => 1 / ((k : ℝ) + 1) + ∑ a ∈ (Finset.range P.num).filter (fun a => P.Live a), |side xo n (posAt (Q k) a) - side xo n (posAt P a)|
  have hε0 : ∀ k, 0 ≤ ε k := fun k => add_nonneg (by positivity) (Finset.sum_nonneg fun _ _ => abs_nonneg _)
  have hε : Tendsto ε atTop (𝓝 0) := by
    have h1 : Tendsto (fun k : Nat => 1 / ((k : ℝ) + 1)) atTop (𝓝 0) := tendsto_one_div_add_atTop_nhds_zero_nat
    have h2 : Tendsto (fun k => ∑ a ∈ (Finset.range P.num).filter (fun a => P.Live a), |side xo n (posAt (Q k) a) - side xo n (posAt P a)|) atTop (𝓝 (∑ a ∈ (Finset.range P.num).filter (fun a => P.Live a), (0 : ℝ))) := by
      refine tendsto_finsetSum _ fun a ha => ?_
      obtain ⟨u, hu⟩ := Option.ne_none_iff_exists'.1 (Finset.mem_filter.1 ha).2
      have := ((hn.side (n := n) (xo := xo) (y := fun _ => xo) (fun d => tendsto_const_nhds) hu).sub_const (side xo n (posAt P a))).abs
      rw [posAt_eq hu] at this ⊢
      simpa using this
    have := h1.add h2
    rw [Finset.sum_const_zero, add_zero] at this
    exact this
  let δ' : Nat → Option Wall → ℝ := fun k w => if w = some (Wall.pt t) then ε k / normSq3 n else δ k w
  let y : Nat → Nat → ℝ := fun k d => xo d + ε k / normSq3 n * n d
  have hyl : ∀ d, Tendsto (fun k => y k d) atTop (𝓝 (xo d)) := fun d => by
    have := tendsto_const_nhds (x := xo d) |>.add ((hε.div_const (normSq3 n)).mul_const (n d))
    simpa using this
  have hys : ∀ k z, side (y k) n z = side xo n z - ε k := fun k z => by
    show side (fun d => xo d + ε k / normSq3 n * n d) n z = _
    rw [side_shift, div_mul_cancel₀ _ hnn.ne']
  have hpl' : ∀ k, shiftPl pl (δ' k) (some (Wall.pt t)) = (y k, n) := fun k => by
    show (_, _) = (_, _)
    simp only [δ', if_true, hpl, y]
  have hδ' : ∀ k w, 0 ≤ δ' k w := fun k w => by
    show 0 ≤ (if w = some (Wall.pt t) then ε k / normSq3 n else δ k w)
    split
    · exact div_nonneg (hε0 k) hnn.le
    · exact hδ k w
  have hδ0' : ∀ w, Tendsto (fun k => δ' k w) atTop (𝓝 0) := fun w => by
    by_cases hw : w = some (Wall.pt t)
    · have : (fun k => δ' k w) = fun k => ε k / normSq3 n := by funext k; exact if_pos hw
      rw [this]
      simpa using hε.div_const (normSq3 n)
    · have : (fun k => δ' k w) = fun k => δ k w := by funext k; exact if_neg hw
      rw [this]
      exact hδ0 w
  have hsh' : ∀ᶠ k in atTop, (Q k).Shape (shiftPl pl (δ' k)) := (hn.twin.and hsh).mono fun k hk => hk.2.congr fun b i hb hi => by
    have hne : (Q k).wall b i ≠ some (Wall.pt t) := by rw [hk.1.wall]; exact hfresh b i ((hk.1.alive b).1 hb) hi
    show (_, _) = (_, _)
    simp only [δ', if_neg hne]
  have hneg : ∀ k a u, P.pos a = some u → side xo n u ≤ 0 → side (y k) n (posAt (Q k) a) < 0 := fun k a u hu hle => by
    rw [hys]
    have hmem : a ∈ (Finset.range P.num).filter (fun a => P.Live a) := Finset.mem_filter.2 ⟨Finset.mem_range.2 (hwf.fin a (live_of_pos hu)), live_of_pos hu⟩
    have h1 := Finset.single_le_sum (f := fun a => |side xo n (posAt (Q k) a) - side xo n (posAt P a)|) (fun _ _ => abs_nonneg _) hmem
    have h2 := le_abs_self (side xo n (posAt (Q k) a) - side xo n (posAt P a))
    rw [posAt_eq hu] at h1 h2
    have h3 : (0 : ℝ) < 1 / ((k : ℝ) + 1) := by positivity
    show _ - (1 / ((k : ℝ) + 1) + _) < 0
    linarith
  have hclear : ∀ᶠ k in atTop, ∀ a, P.Live a → side (y k) n (posAt (Q k) a) > 1e-10 ∨ side (y k) n (posAt (Q k) a) < 0 := hn.eventually_all hwf.fin fun a ha => by
    obtain ⟨u, hu⟩ := Option.ne_none_iff_exists'.1 ha
    rcases hgap a u hu with g | g
    · exact Eventually.of_forall fun k => Or.inr (hneg k a u hu g)
    · exact ((hn.side hyl hu).eventually_const_lt g).mono fun k hk => Or.inl hk
  have hbey : ∀ᶠ k in atTop, side (y k) n (posAt (Q k) c) > 1e-10 := (hn.side hyl hv).eventually_const_lt hs
  have hrun : ∀ᶠ k in atTop, Twin P (Q k) ∧ (Q k).Shape (shiftPl pl (δ' k)) ∧ (Q k).Clear (y k) n ∧ ∃ R ed far, trimVertex t (y k) n (P.num + 1) c c (Q k) = some R ∧ Trimmed (Q k) (y k) n t R ed far := by
    refine ((hn.twin.and hsh').and (hclear.and hbey)).mono fun k hk => ?_
    obtain ⟨⟨k1, k2⟩, k3, k4⟩ := hk
    obtain ⟨R, ed, far, e, g⟩ := trimVertex_trimmed k2 t (c := c) (xo := y k) (n := n) ⟨_, k1.pos hv, k4⟩
    rw [k1.num] at e
    refine ⟨k1, k2, fun a u hu => ?_, R, ed, far, e, g⟩
    have := k3 a ((k1.alive a).1 (live_of_pos hu))
    rwa [posAt_eq hu] at this
  rcases trimVertex_near (t := t) hyl hwf hn (fun a u _ hu => hgap a u hu) (P.num + 1) hv hs with ⟨-, q⟩ | ⟨R, Q', hR, hQ', hnear⟩
  · obtain ⟨k, ⟨-, -, -, R, ed, far, e, -⟩, k2⟩ := (hrun.and q).exists
    rw [k2] at e
    simp at e
  have hall : ∀ᶠ k in atTop, Twin P (Q k) ∧ Twin R (Q' k) ∧ (Q k).Shape (shiftPl pl (δ' k)) ∧ (Q k).Clear (y k) n ∧ ∃ ed far, Trimmed (Q k) (y k) n t (Q' k) ed far := by
    refine ((hrun.and hQ').and hnear.twin).mono fun k hk => ?_
    obtain ⟨⟨⟨k1, k2, k3, R', ed, far, e, g⟩, k4⟩, k5⟩ := hk
    rw [k4] at e
    obtain rfl := Option.some.inj e
    exact ⟨k1, k5, k2, k3, ed, far, g⟩
  refine ⟨R, hR, ⟨Q', δ', hnear, hall.mono fun k hk => ?_, hδ', hδ0'⟩, fun a u hu hle => ?_, fun a u hu => ⟨?_, fun b i hb hi => ?_⟩, fun b i hb hi => ?_⟩
  · obtain ⟨-, -, k2, k3, ed, far, g⟩ := hk
    exact g.shape k2 k3 (hpl' k)
  · have hin : ∀ᶠ k in atTop, (Q' k).pos a = (Q k).pos a := hall.mono fun k hk => by
      obtain ⟨k1, -, -, -, ed, far, g⟩ := hk
      exact g.posOld a ⟨_, k1.pos hu, not_lt.2 ((hneg k a u hu hle).le.trans (by norm_num))⟩
    cases hr : R.pos a with
    | none =>
      exfalso
      obtain ⟨k, ⟨k1, k2, -⟩, k3⟩ := (hall.and hin).exists
      rw [(k2.live a).2 hr, k1.pos hu] at k3
      simp at k3
    | some w =>
      congr 1
      funext d
      refine tendsto_nhds_unique (hnear.lim a w hr d) ((hn.lim a u hu d).congr' (hin.mono fun k hk => ?_))
      exact congrFun (posAt_congr hk.symm) d
  · refine le_of_tendsto (hnear.side hyl hu) (hall.mono fun k hk => ?_)
    obtain ⟨-, k1, k2, k3, ed, far, g⟩ := hk
    exact g.cut k2 k3 (k1.pos hu)
  · refine le_of_tendsto (hgt_tendsto hnear hδ0' (P.wall b i) hu) (hall.mono fun k hk => ?_)
    obtain ⟨k0, k1, k2, k3, ed, far, g⟩ := hk
    refine g.between k2 k3 (fun a' u' hu' => ?_) (k1.pos hu)
    have := k2.le hu' ((k0.alive b).2 hb) hi
    rwa [k0.wall] at this
  · obtain ⟨k, k0, k1, -, -, ed, far, g⟩ := hall.exists
    rcases g.wall_cases ((k1.alive b).2 hb) hi with e | ⟨b', i', e1, e2, e3⟩
    · rw [k1.wall] at e; exact Or.inl e
    · rw [k1.wall, k0.wall] at e3
      exact Or.inr ⟨b', i', (k0.alive b').1 e1, e2, e3⟩

/-- The part of a limit of polytopes on one side of the plane. -/
theorem Poly.Weak.trim_solid (h : P.Weak pl) (hpl : pl (some (Wall.pt t)) = (xo, n)) (hgap : ∀ c v, P.pos c = some v → side xo n v ≤ 0 ∨ side xo n v > 1e-10) {c : Nat} {v : Nat → ℝ} (hv : P.pos c = some v) (hs : side xo n v > 1e-10)
    {z0 : Nat → ℝ} (hz0 : P.Solid z0) (hs0 : side xo n z0 ≤ 0) :
    ∃ R, trimVertex t xo n (P.num + 1) c c P = some R ∧ R.Weak pl ∧ (∃ a, R.Live a) ∧ ∀ z, R.Solid z ↔ P.Solid z ∧ side xo n z ≤ 0 := by
  obtain ⟨R, e, hw, h1, h2, h3⟩ := h.trim hpl hgap hv hs
  have hne : ∃ a, R.Live a := by
    obtain ⟨a, u, hu, hle⟩ := hz0.exists_le hs0
    exact ⟨a, live_of_pos (h1 a u hu hle)⟩
  have hneP : ∃ a, P.Live a := ⟨c, live_of_pos hv⟩
  refine ⟨R, e, hw, hne, fun z => ⟨fun hz => ⟨(h.solid hneP z).2 fun b i hi hb => hz.le fun a u hu => (h2 a u hu).2 b i hb hi, hz.le fun a u hu => (h2 a u hu).1⟩, fun ⟨hz, hz'⟩ => (hw.solid hne z).2 fun b i hi hb => ?_⟩⟩
  rcases h3 b i hb hi with e | ⟨b', i', e1, e2, e3⟩
  · unfold hgt; rw [e, hpl]; exact hz'
  · rw [e3]; exact (h.solid hneP z).1 hz b' i' e2 e1

end VoroCrust
