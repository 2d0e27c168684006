import Verif.Model.Vwn
import Verif.Props.Vps

/-! # Property C118: the mean over neighbouring cells -/

namespace VoroCrust

open Classical

/-- The share of neighbour `a` before normalization: the square of hits over distance. -/
noncomputable def hitShare (V : VpsIn) (z : Nat → ℝ) (a : NbrRec) : ℝ := (a.hits / euclid V.P.dim z (V.P.pts a.seed)) ^ 2

theorem vwnWeight_eq (V : VpsIn) (hs : 0 < V.spokes) (z : Nat → ℝ) (a : NbrRec) (hd : 0 < euclid V.P.dim z (V.P.pts a.seed)) :
    vwnWeight V z a = some (hitShare V z a / (V.spokes : ℝ) ^ 2) := by
  have h1 : (V.spokes : ℝ) ≠ 0 := by exact_mod_cast hs.ne'
  have h2 : euclid V.P.dim z (V.P.pts a.seed) ^ 2 ≠ 0 := by positivity
  unfold vwnWeight
  simp only [ddiv, if_neg h1, dmul_some, dstSqAt_eq, if_neg h2]
  unfold hitShare
  congr 1
  field_simp

theorem vwnLoop_spec (V : VpsIn) (cells : Nat → VpsCell) (hs : 0 < V.spokes) (z : Nat → ℝ) (v e : Nat → ℝ) : ∀ (l : List NbrRec) (f0 e0 t0 : ℝ),
    (∀ a ∈ l, 0 < euclid V.P.dim z (V.P.pts a.seed) ∧ evalCellErr V cells a.seed z = some (some (v a.seed), some (e a.seed))) →
    vwnLoop V cells z l (some f0, some e0, some t0) = some (some (f0 + (l.map fun a => hitShare V z a * v a.seed).sum / (V.spokes : ℝ) ^ 2),
      some (e0 + (l.map fun a => hitShare V z a * e a.seed).sum / (V.spokes : ℝ) ^ 2), some (t0 + (l.map (hitShare V z)).sum / (V.spokes : ℝ) ^ 2)) := by
  intro l
  induction l with
  | nil => intro f0 e0 t0 _; simp [vwnLoop]
  | cons a l ih =>
    intro f0 e0 t0 h
    obtain ⟨h1, h2⟩ := h a (by simp)
    rw [vwnLoop, h2]
    simp only [vwnWeight_eq V hs z a h1, dmul_some, dadd_some]
    rw [ih _ _ _ fun b hb => h b (by simp [hb])]
    simp only [List.map_cons, List.sum_cons]
    refine congrArg some (Prod.ext (congrArg some ?_) (Prod.ext (congrArg some ?_) (congrArg some ?_))) <;> ring

/-- What `get_Voronoi_neighbors` finds around a point that is not at a seed: neighbours with at least one hit. -/
theorem far_neighbors (P : PointStore ℝ) (ln : Links) (h : RealTree P ln) (z : Nat → ℝ) (uss : List (List (Nat → ℝ))) (hu : ∀ us ∈ uss, ∀ u ∈ us, UnitDir P.dim u)
    (hfar : ∀ q, q < P.num → 1e-10 ≤ euclid P.dim z (P.pts q)) :
    ∃ out sp, voronoiNeighbors P ln (fun _ => true) z uss = some (out, sp) ∧ (out.map NbrRec.seed).Nodup ∧
      ∀ a ∈ out, a.seed < P.num ∧ 1 ≤ a.hits ∧ ∃ us ∈ uss, a.hits ≤ us.length ∧ ∃ u ∈ us, ∃ nb b, EndsAt P (fun q => True ∧ q ∉ upTo out (a.level - 1)) z z u nb b := by
  obtain ⟨out, sp, e, h1, h2, h3, -, h5, -⟩ := C89_neighbors P ln h (fun _ => true) z uss hu
  refine ⟨out, sp, e, h1, fun a ha => ?_⟩
  obtain ⟨g1, -, g3⟩ := h2 a ha
  have g0 : a.level ≠ 0 := fun h0 => by
    obtain ⟨q, q1, -, q3⟩ := h3.1 ⟨a, ha, h0⟩
    linarith [hfar q q1]
  have hk : a.level - 1 < uss.length := by omega
  obtain ⟨k1, -⟩ := h5 (a.level - 1) uss[a.level - 1] (List.getElem?_eq_getElem hk)
  obtain ⟨k2, k3⟩ := k1 a ha (by omega)
  refine ⟨g1, k2, uss[a.level - 1], List.getElem_mem hk, ?_, ?_⟩
  · rw [k3]; exact List.countP_le_length
  · have hpos : 0 < hitCount P ln (fun _ => true) z (upTo out (a.level - 1)) uss[a.level - 1] a.seed := by omega
    obtain ⟨u, hu1, hu2⟩ := List.countP_pos_iff.1 hpos
    obtain ⟨b, hb⟩ := of_decide_eq_true hu2
    obtain ⟨nb, len, e', hr⟩ := C88_trim_spoke P ln h (fun _ => true) z (upTo out (a.level - 1)) z u (hu _ (List.getElem_mem hk) u hu1)
      (by intro q _ _; rw [euclid_self]; exact euclid_nonneg _ _ _)
    refine ⟨u, hu1, ?_⟩
    rcases hr with ⟨t, -, ht⟩ | ⟨h7, -, -⟩
    · exact ⟨nb, t, by simpa using ht⟩
    · rw [spokeHit, e', h7] at hb
      simp at hb

/-- **C118.** Away from the seeds, if some spoke ends at a seed and the models of the neighbours found have values, the result is their mean with positive weights that sum to one, in proportion to the
squares of the number of spokes that end at the neighbour over its distance; the estimate of the error is the mean of the estimates. -/
theorem C118_mean (V : VpsIn) (h : RealTree V.P V.ln) (cells : Nat → VpsCell) (z : Nat → ℝ) (uss : List (List (Nat → ℝ))) (hne : uss ≠ []) (hs : 0 < V.spokes) (hmax : V.spokes < 18446744073709551615)
    (hlen : ∀ us ∈ uss, us.length = V.spokes) (hu : ∀ us ∈ uss, ∀ u ∈ us, UnitDir V.P.dim u) (hfar : ∀ q, q < V.P.num → 1e-10 ≤ euclid V.P.dim z (V.P.pts q)) (v e : Nat → ℝ)
    (hve : ∀ i, i < V.P.num → evalCellErr V cells i z = some (some (v i), some (e i))) :
    ∃ out sp, voronoiNeighbors V.P V.ln (fun _ => true) z uss = some (out, sp) ∧ (out ≠ [] → ∃ lam : NbrRec → ℝ, (∀ a ∈ out, 0 < lam a) ∧ (out.map lam).sum = 1 ∧
      (∀ a ∈ out, ∀ b ∈ out, lam a * (b.hits / euclid V.P.dim z (V.P.pts b.seed)) ^ 2 = lam b * (a.hits / euclid V.P.dim z (V.P.pts a.seed)) ^ 2) ∧
      evalVwn V cells z uss = some (some (out.map fun a => lam a * v a.seed).sum, some (some (out.map fun a => lam a * e a.seed).sum))) := by
  obtain ⟨out, sp, ev, -, hout⟩ := far_neighbors V.P V.ln h z uss hu hfar
  refine ⟨out, sp, ev, fun hno => ?_⟩
  have hd : ∀ a ∈ out, 0 < euclid V.P.dim z (V.P.pts a.seed) := fun a ha => lt_of_lt_of_le (by norm_num) (hfar a.seed (hout a ha).1)
  have hp : ∀ a ∈ out, 0 < hitShare V z a := fun a ha => by
    have h1 : (0 : ℝ) < a.hits := by exact_mod_cast (hout a ha).2.1
    have h2 := hd a ha
    unfold hitShare
    positivity
  have hT : 0 < (out.map (hitShare V z)).sum := by
    refine List.sum_pos _ (fun x hx => ?_) (by simpa using hno)
    obtain ⟨a, ha, rfl⟩ := List.mem_map.1 hx
    exact hp a ha
  have hsum : ∀ g : NbrRec → ℝ, (out.map fun a => hitShare V z a / (out.map (hitShare V z)).sum * g a).sum = (out.map fun a => hitShare V z a * g a).sum / (out.map (hitShare V z)).sum := by
    intro g
    rw [div_eq_mul_inv, ← List.sum_map_mul_right]
    refine congrArg List.sum (List.map_congr_left fun a _ => ?_)
    ring
  refine ⟨fun a => hitShare V z a / (out.map (hitShare V z)).sum, fun a ha => div_pos (hp a ha) hT, ?_, ?_, ?_⟩
  · have := hsum fun _ => 1
    simp only [mul_one] at this
    rw [this]
    exact div_self hT.ne'
  · intro a _ b _
    change hitShare V z a / _ * hitShare V z b = hitShare V z b / _ * hitShare V z a
    ring
  · rw [hsum fun a => v a.seed, hsum fun a => e a.seed]
    obtain ⟨a, l, rfl⟩ := List.exists_cons_of_ne_nil hno
    have hh : a.hits ≠ sizeMax64 := by
      obtain ⟨-, -, us, hus, hle, -⟩ := hout a (by simp)
      have := hlen us hus
      unfold sizeMax64
      omega
    have hl := vwnLoop_spec V cells hs z v e (a :: l) 0 0 0 fun b hb => ⟨hd b hb, hve _ (hout b hb).1⟩
    have hS : (0 : ℝ) < (V.spokes : ℝ) ^ 2 := by
      have : (0 : ℝ) < V.spokes := by exact_mod_cast hs
      positivity
    unfold evalVwn
    rw [if_neg hne, ev]
    simp only [if_neg hh]
    rw [hl]
    simp only [Option.map_some, zero_add, ddiv]
    have h0 : ((a :: l).map (hitShare V z)).sum / (V.spokes : ℝ) ^ 2 ≠ 0 := (div_pos hT hS).ne'
    rw [if_neg h0, if_neg h0, div_div_div_cancel_right₀ hS.ne', div_div_div_cancel_right₀ hS.ne']

/-- **C118, bounds.** So the result is between the least and the greatest value, and if all models have the same value at the point, as when they all reproduce a function, it is that value. -/
theorem C118_between (V : VpsIn) (h : RealTree V.P V.ln) (cells : Nat → VpsCell) (z : Nat → ℝ) (uss : List (List (Nat → ℝ))) (hne : uss ≠ []) (hs : 0 < V.spokes) (hmax : V.spokes < 18446744073709551615)
    (hlen : ∀ us ∈ uss, us.length = V.spokes) (hu : ∀ us ∈ uss, ∀ u ∈ us, UnitDir V.P.dim u) (hfar : ∀ q, q < V.P.num → 1e-10 ≤ euclid V.P.dim z (V.P.pts q)) (v e : Nat → ℝ)
    (hve : ∀ i, i < V.P.num → evalCellErr V cells i z = some (some (v i), some (e i))) (lo hi : ℝ) (hv : ∀ i, i < V.P.num → lo ≤ v i ∧ v i ≤ hi) (r : Dbl × Option Dbl)
    (hr : evalVwn V cells z uss = some r) : ∃ y, r.1 = some y ∧ lo ≤ y ∧ y ≤ hi := by
  obtain ⟨out, sp, ev, hmean⟩ := C118_mean V h cells z uss hne hs hmax hlen hu hfar v e hve
  obtain ⟨out', sp', ev', -, hout⟩ := far_neighbors V.P V.ln h z uss hu hfar
  rw [ev] at ev'
  obtain ⟨rfl, rfl⟩ := Prod.ext_iff.1 (Option.some.inj ev')
  by_cases hno : out = []
  · subst hno
    rw [evalVwn, if_neg hne, ev] at hr
    simp at hr
  · obtain ⟨lam, l1, l2, -, l4⟩ := hmean hno
    rw [l4] at hr
    obtain rfl := Option.some.inj hr
    refine ⟨_, rfl, ?_, ?_⟩
    · calc lo = (out.map lam).sum * lo := by rw [l2, one_mul]
        _ = (out.map fun a => lam a * lo).sum := (List.sum_map_mul_right ..).symm
        _ ≤ _ := List.sum_le_sum fun a ha => mul_le_mul_of_nonneg_left (hv _ (hout a ha).1).1 (l1 a ha).le
    · calc _ ≤ (out.map fun a => lam a * hi).sum := List.sum_le_sum fun a ha => mul_le_mul_of_nonneg_left (hv _ (hout a ha).1).2 (l1 a ha).le
        _ = (out.map lam).sum * hi := List.sum_map_mul_right ..
        _ = hi := by rw [l2, one_mul]

theorem along_sq_split (n : Nat) (z u p : Nat → ℝ) (b : ℝ) : euclid n (along z u b) p ^ 2 = euclid n (along z u b) z ^ 2 + euclid n z p ^ 2 - 2 * b * ∑ d ∈ Finset.range n, u d * (p d - z d) := by
  rw [euclid_sq, euclid_sq, euclid_sq, Finset.mul_sum, ← Finset.sum_add_distrib, ← Finset.sum_sub_distrib]
  refine Finset.sum_congr rfl fun d _ => ?_
  unfold along
  ring

/-- **C118, neighbours are found.** A spoke of the first layer that points towards a seed, by more than the tolerance, ends at some seed: then there is a neighbour, and the result of `C118_mean` is there. -/
theorem C118_found (P : PointStore ℝ) (ln : Links) (h : RealTree P ln) (z : Nat → ℝ) (us : List (Nat → ℝ)) (uss : List (List (Nat → ℝ))) (hu : ∀ vs ∈ us :: uss, ∀ u ∈ vs, UnitDir P.dim u)
    (hfar : ∀ q, q < P.num → 1e-10 ≤ euclid P.dim z (P.pts q)) (u : Nat → ℝ) (huu : u ∈ us) (q : Nat) (hq : q < P.num) (hto : 1e-8 < ∑ d ∈ Finset.range P.dim, u d * (P.pts q d - z d)) :
    ∃ out sp, voronoiNeighbors P ln (fun _ => true) z (us :: uss) = some (out, sp) ∧ out ≠ [] := by
  obtain ⟨out, sp, e, h1, h2, h3, -, h5, -⟩ := C89_neighbors P ln h (fun _ => true) z (us :: uss) hu
  refine ⟨out, sp, e, ?_⟩
  obtain ⟨-, k2⟩ := h5 0 us rfl
  have hup : upTo out 0 = [] := by
    unfold upTo
    rw [List.map_eq_nil_iff, List.filter_eq_nil_iff]
    intro a ha hl
    obtain ⟨q', q1, -, q3⟩ := h3.1 ⟨a, ha, by simpa using hl⟩
    linarith [hfar q' q1]
  obtain ⟨nb, len, e', hr⟩ := C88_trim_spoke P ln h (fun _ => true) z (upTo out 0) z u (hu us (by simp) u huu) (by intro q _ _; rw [euclid_self]; exact euclid_nonneg _ _ _)
  rcases hr with ⟨t, rfl, -⟩ | ⟨-, -, hun⟩
  · obtain ⟨a, ha, -⟩ := k2 u huu nb t (by rw [spokeHit, e'])
    exact List.ne_nil_of_mem ha
  · exfalso
    rw [hup] at hun
    generalize hD : ∑ d ∈ Finset.range P.dim, u d * (P.pts q d - z d) = D at hto
    have key : ∀ s, 0 ≤ s → 2 * s * (D - 1e-8) ≤ euclid P.dim z (P.pts q) ^ 2 := fun s hs => by
      have := hun q hq ⟨rfl, by simp⟩ s hs
      rw [along_sq_split P.dim z u (P.pts q) s, hD] at this
      linarith
    have hDp : 0 < D - 1e-8 := by linarith
    have hs0 : 0 ≤ euclid P.dim z (P.pts q) ^ 2 + 1 := by positivity
    have := key ((euclid P.dim z (P.pts q) ^ 2 + 1) / (D - 1e-8)) (div_nonneg hs0 hDp.le)
    rw [mul_assoc, div_mul_cancel₀ _ hDp.ne'] at this
    nlinarith [sq_nonneg (euclid P.dim z (P.pts q))]

/-- **C118, at a seed.** Within `1e-10` of a seed the result is the value stored for a nearest seed.  The estimate of the error is not set. -/
theorem C118_at_seed (V : VpsIn) (h : RealTree V.P V.ln) (cells : Nat → VpsCell) (z : Nat → ℝ) (uss : List (List (Nat → ℝ))) (hne : uss ≠ []) (hu : ∀ us ∈ uss, ∀ u ∈ us, UnitDir V.P.dim u)
    (hnear : ∃ q, q < V.P.num ∧ euclid V.P.dim z (V.P.pts q) < 1e-10) :
    ∃ i, i < V.P.num ∧ (∀ q, q < V.P.num → euclid V.P.dim z (V.P.pts i) ≤ euclid V.P.dim z (V.P.pts q)) ∧ evalVwn V cells z uss = some (some (V.f i), none) := by
  obtain ⟨q, hq, hqd⟩ := hnear
  obtain ⟨ic, hc, e, hcl⟩ := C06_closest_is_exhaustive V.P V.ln h (fun _ => true) z false ⊤ le_top
  rcases hcl with ⟨h1, h2, h3, -, h5⟩ | ⟨-, -, h5⟩
  · refine ⟨ic, h1, fun k hk => h5 k hk rfl, ?_⟩
    have hn : hc < ((1e-10 : ℝ) : WithTop ℝ) := by
      rw [h3]
      exact WithTop.coe_lt_coe.2 (lt_of_le_of_lt (h5 q hq rfl) hqd)
    obtain ⟨ext, sp', e', -⟩ := spokeLayers_spec h (fun _ => true) z uss hu 0 [⟨ic, sizeMax64, 0⟩] [] (by simp) (by simp) (by simp [h1])
    unfold evalVwn
    rw [if_neg hne]
    unfold voronoiNeighbors
    rw [e]
    simp only
    rw [if_pos hn]
    simp only [List.map_cons, List.map_nil] at e'
    rw [e']
    simp [h1]
  · have := h5 q hq rfl
    simp at this

/-- **C118, no layers.** With no layers of neighbours the value and the estimate are those of the model of a nearest seed. -/
theorem C118_plain (V : VpsIn) (h : RealTree V.P V.ln) (cells : Nat → VpsCell) (z : Nat → ℝ) :
    ∃ i, i < V.P.num ∧ (∀ q, q < V.P.num → euclid V.P.dim z (V.P.pts i) ≤ euclid V.P.dim z (V.P.pts q)) ∧ evalVwn V cells z [] = (evalCellErr V cells i z).map fun r => (r.1, some r.2) := by
  obtain ⟨ic, hc, e, hcl⟩ := C06_closest_is_exhaustive V.P V.ln h (fun _ => true) z false ⊤ le_top
  have h0 : 0 < V.P.num := by
    obtain ⟨t, -, hne, hmem⟩ := h.ok
    cases t with
    | nil => exact absurd rfl hne
    | node i l r => exact Nat.zero_lt_of_lt ((hmem i).1 (by simp [KT.idx]))
  rcases hcl with ⟨h1, h2, h3, -, h5⟩ | ⟨-, -, h5⟩
  · refine ⟨ic, h1, fun k hk => h5 k hk rfl, ?_⟩
    unfold evalVwn evalVpsErr
    rw [if_pos rfl, if_neg (by omega), e]
  · have := h5 0 h0 rfl
    simp at this

/-- **C118, finding.** If every spoke points away from all seeds, as can happen outside of their hull, no neighbour is found and the first entry of an array without entries is read. -/
theorem C118_no_neighbor_undefined (V : VpsIn) (h : RealTree V.P V.ln) (cells : Nat → VpsCell) (z : Nat → ℝ) (uss : List (List (Nat → ℝ))) (hne : uss ≠ []) (hu : ∀ us ∈ uss, ∀ u ∈ us, UnitDir V.P.dim u)
    (hfar : ∀ q, q < V.P.num → 1e-10 ≤ euclid V.P.dim z (V.P.pts q)) (haway : ∀ us ∈ uss, ∀ u ∈ us, ∀ q, q < V.P.num → ∑ d ∈ Finset.range V.P.dim, u d * (V.P.pts q d - z d) ≤ 0) :
    evalVwn V cells z uss = none := by
  obtain ⟨out, sp, ev, -, hout⟩ := far_neighbors V.P V.ln h z uss hu hfar
  have : out = [] := by
    rw [List.eq_nil_iff_forall_not_mem]
    intro a ha
    obtain ⟨-, -, us, hus, -, u, huu, nb, b, hE⟩ := hout a ha
    have h1 := haway us hus u huu nb hE.valid
    have h2 := hfar nb hE.valid
    have h3 : euclid V.P.dim (along z u b) z ^ 2 = euclid V.P.dim (along z u b) (V.P.pts nb) ^ 2 := by rw [hE.equal]
    rw [along_sq_split V.P.dim z u (V.P.pts nb) b] at h3
    have h6 := hE.nonneg
    have h7 : 0 < euclid V.P.dim z (V.P.pts nb) := lt_of_lt_of_le (by norm_num) h2
    nlinarith [mul_nonneg h6 (neg_nonneg.2 h1), pow_pos h7 2]
  subst this
  unfold evalVwn
  rw [if_neg hne, ev]

/-- Two seeds on a line with constant models. -/
noncomputable def lineVps : VpsIn := { cheb := false, total := true, P := twoPoints 0 2, ln := linkRight, f := fun i => if i = 0 then 3 else 5, order := 0, spokes := 2 }

theorem lineVps_dirs (a b : ℝ) (ha : a ^ 2 = 1) (hb : b ^ 2 = 1) : ∀ us ∈ [[fun _ => a, fun _ => b]], ∀ u ∈ us, UnitDir lineVps.P.dim u := by
  intro us hus u hu
  simp only [List.mem_singleton] at hus
  subst hus
  simp only [List.mem_cons, List.not_mem_nil, or_false] at hu
  have hab : (0 - a) ^ 2 = 1 ∧ (0 - b) ^ 2 = 1 := ⟨by linarith [show (0 - a) ^ 2 = a ^ 2 by ring], by linarith [show (0 - b) ^ 2 = b ^ 2 by ring]⟩
  rcases hu with rfl | rfl
  · unfold UnitDir euclid; simp [lineVps, twoPoints, ha]
  · unfold UnitDir euclid; simp [lineVps, twoPoints, hb]

/-- Outside of the two seeds, with both spokes away from them. -/
example : evalVwn lineVps (fun _ => ⟨0, fun _ => none⟩) (fun _ => 5) [[fun _ => 1, fun _ => 1]] = none := by
  refine C118_no_neighbor_undefined lineVps (twoPoints_right (by norm_num)) _ _ _ (by simp) (lineVps_dirs 1 1 (by norm_num) (by norm_num)) ?_ ?_
  · intro q hq
    have hq : q < 2 := hq
    interval_cases q <;> (unfold euclid; norm_num [lineVps, twoPoints, upd]) <;> exact Real.le_sqrt_of_sq_le (by norm_num)
  · intro us hus u hu q hq
    simp only [List.mem_singleton] at hus
    subst hus
    simp only [List.mem_cons, List.not_mem_nil, or_false, or_self] at hu
    subst hu
    have hq : q < 2 := hq
    interval_cases q <;> norm_num [lineVps, twoPoints, upd]

theorem lineVps_far : ∀ q, q < lineVps.P.num → 1e-10 ≤ euclid lineVps.P.dim (fun _ => 1) (lineVps.P.pts q) := by
  intro q hq
  have hq : q < 2 := hq
  interval_cases q <;> (unfold euclid; norm_num [lineVps, twoPoints, upd])

/-- Between the two seeds the result is there, and between the values of the seeds. -/
example : ∃ y e, evalVwn lineVps (fun _ => ⟨0, fun _ => none⟩) (fun _ => 1) [[fun _ => 1, fun _ => -1]] = some (some y, some (some e)) ∧ 3 ≤ y ∧ y ≤ 5 := by
  have hT : RealTree lineVps.P lineVps.ln := twoPoints_right (by norm_num)
  have hu := lineVps_dirs 1 (-1) (by norm_num) (by norm_num)
  have hve : ∀ i, i < lineVps.P.num → evalCellErr lineVps (fun _ => ⟨0, fun _ => none⟩) i (fun _ => 1) =
      some (some (if i = 0 then 3 else 5), some ((errZero lineVps (lineVps.P.pts i) fun _ => 1).getD 0)) := by
    intro i hi
    unfold evalCellErr
    rw [if_pos hi]
    simp [lineVps, errZero]
  obtain ⟨out, sp, e1, e2⟩ := C118_mean lineVps hT (fun _ => ⟨0, fun _ => none⟩) (fun _ => 1) _ (by simp) (by decide) (by decide) (by simp [lineVps]) hu lineVps_far _ _ hve
  obtain ⟨out', sp', f1, f2⟩ := C118_found lineVps.P lineVps.ln hT (fun _ => 1) _ [] hu lineVps_far (fun _ => 1) (by simp) 1 (by decide) (by norm_num [lineVps, twoPoints, upd])
  rw [e1] at f1
  obtain ⟨rfl, rfl⟩ := Prod.ext_iff.1 (Option.some.inj f1)
  obtain ⟨lam, -, -, -, l4⟩ := e2 f2
  obtain ⟨y, y1, y2⟩ := C118_between lineVps hT (fun _ => ⟨0, fun _ => none⟩) (fun _ => 1) _ (by simp) (by decide) (by decide) (by simp [lineVps]) hu lineVps_far _ _ hve 3 5
    (fun i _ => by split <;> norm_num) _ l4
  obtain rfl := Option.some.inj y1
  exact ⟨_, _, l4, y2⟩

end VoroCrust
