import Verif.Model.Vps
import Verif.Props.Spokes
import Verif.Props.Basis
import Verif.Props.LeastSquares
import Mathlib.Algebra.MvPolynomial.Degrees
import Mathlib.Tactic.Linarith

/-! # The surrogate of MeshingVoroSpokes: C99 -/

namespace VoroCrust

open Classical

/-! ## Specification -/

/-- The functions of the basis for an order: each admitted multi-index once. -/
def BasisList (total : Bool) (d order : Nat) (L : List (Fin d → Nat)) : Prop := L.Nodup ∧ ∀ α, α ∈ L ↔ Admitted total d order α

/-- The value at `z` of the expansion around `x` with the coefficients `c`. -/
noncomputable def expansion (V : VpsIn) (L : List (Fin V.P.dim → Nat)) (c : (Fin V.P.dim → Nat) → ℝ) (f0 : ℝ) (x z : Nat → ℝ) : ℝ :=
  f0 + (L.map fun α => c α * basisValue V.cheb α fun d => z d - x d).sum

/-- The weight of a neighbour: the fraction of the spokes it ends, over its distance, squared. -/
noncomputable def hitWeight (V : VpsIn) (x : Nat → ℝ) (a : NbrRec) : ℝ := ((a.hits / V.spokes) / euclid V.P.dim (V.P.pts a.seed) x) ^ 2

/-- The weighted squares of the errors at the neighbours. -/
noncomputable def fitError (V : VpsIn) (L : List (Fin V.P.dim → Nat)) (i : Nat) (nb : List NbrRec) (c : (Fin V.P.dim → Nat) → ℝ) : ℝ :=
  (nb.map fun a => (hitWeight V (V.P.pts i) a * (expansion V L c (V.f i) (V.P.pts i) (V.P.pts a.seed) - V.f a.seed)) ^ 2).sum

/-- The weighted values of the functions of the basis at the neighbours. -/
noncomputable def fitMatrix (V : VpsIn) (L : List (Fin V.P.dim → Nat)) (i : Nat) (nb : List NbrRec) (r j : Nat) : ℝ :=
  match nb[r]?, L[j]? with
  | some a, some α => hitWeight V (V.P.pts i) a * basisValue V.cheb α fun d => V.P.pts a.seed d - V.P.pts i d
  | _, _ => 0

/-- The neighbours of the regression: different seeds, away from `x`, each with a spoke that ends there. -/
structure FitSeeds (V : VpsIn) (x : Nat → ℝ) (nb : List NbrRec) : Prop where
  nodup : (nb.map NbrRec.seed).Nodup
  valid : ∀ a ∈ nb, a.seed < V.P.num
  hits : ∀ a ∈ nb, 1 ≤ a.hits
  apart : ∀ a ∈ nb, 0 < euclid V.P.dim (V.P.pts a.seed) x

/-! ## The neighbours -/

theorem hitCount_pos {P : PointStore ℝ} {ln : Links} {mark : Nat → Bool} {x : Nat → ℝ} {old : List Nat} {us : List (Nat → ℝ)} {seed : Nat} (h : 1 ≤ hitCount P ln mark x old us seed) :
    ∃ u ∈ us, ∃ b, spokeHit P ln mark x old u = some (seed, b) := by
  unfold hitCount at h
  obtain ⟨u, hu, hd⟩ := List.countP_pos_iff.1 h
  exact ⟨u, hu, of_decide_eq_true hd⟩

theorem spokeHit_apart {P : PointStore ℝ} {ln : Links} (h : RealTree P ln) {mark : Nat → Bool} {x : Nat → ℝ} {old : List Nat} {u : Nat → ℝ} (hu : UnitDir P.dim u) {seed : Nat} {b : ℝ}
    (hs : spokeHit P ln mark x old u = some (seed, b)) : 0 < euclid P.dim (P.pts seed) x := by
  obtain ⟨nb, len, e, hr⟩ := C88_trim_spoke P ln h mark x old x u hu (by intro q hq he; rw [euclid_self]; exact euclid_nonneg _ _ _)
  unfold spokeHit at hs
  rw [e] at hs
  rcases hr with ⟨t, rfl, ht⟩ | ⟨rfl, rfl, ht⟩
  · simp only [Option.some.injEq, Prod.mk.injEq] at hs
    obtain ⟨rfl, -⟩ := hs
    rcases (euclid_nonneg P.dim (P.pts nb) x).lt_or_eq with h0 | h0
    · exact h0
    · exfalso
      have h1 := ht.beyond (t + 1) (by linarith)
      have h2 : ∀ d, d < P.dim → P.pts nb d = x d := by
        have : euclid P.dim (P.pts nb) x ^ 2 = 0 := by rw [← h0]; norm_num
        rw [euclid_sq] at this
        intro d hd
        have h3 := (Finset.sum_eq_zero_iff_of_nonneg fun i _ => sq_nonneg (P.pts nb i - x i)).1 (by simpa using this) d (Finset.mem_range.2 hd)
        have := pow_eq_zero_iff two_ne_zero |>.1 h3
        linarith
      have h3 : euclid P.dim (along x u (t + 1)) (P.pts nb) ^ 2 = euclid P.dim (along x u (t + 1)) x ^ 2 := by
        rw [euclid_sq, euclid_sq]
        exact Finset.sum_congr rfl fun d hd => by rw [h2 d (Finset.mem_range.1 hd)]
      have h4 := euclid_nonneg P.dim (along x u (t + 1)) (P.pts nb)
      have := pow_lt_pow_left₀ h1 h4 two_ne_zero
      linarith
  · exact absurd hs (by simp)

/-- The directions are unit vectors. -/
def UnitDirs (V : VpsIn) (U : Nat → Nat → Nat → Nat → ℝ) : Prop := ∀ k l s, UnitDir V.P.dim (U k l s)

theorem neighbors_at_seed (V : VpsIn) (h : RealTree V.P V.ln) {i : Nat} (hi : i < V.P.num) (uss : List (List (Nat → ℝ))) (hu : ∀ us ∈ uss, ∀ u ∈ us, UnitDir V.P.dim u) :
    ∃ a ext sp, voronoiNeighbors V.P V.ln (fun _ => true) (V.P.pts i) uss = some (a :: ext, sp) ∧ FitSeeds V (V.P.pts i) ext := by
  obtain ⟨ic, hc, e, hq⟩ := C06_closest_is_exhaustive V.P V.ln h (fun _ => true) (V.P.pts i) false ⊤ le_top
  unfold voronoiNeighbors
  rw [e]
  simp only
  rcases hq with ⟨h1, h2, h3, -, h5⟩ | ⟨-, rfl, h5⟩
  · have h0 := h5 i hi rfl
    rw [euclid_self] at h0
    have hn : hc < ((1e-10 : ℝ) : WithTop ℝ) := by
      rw [h3]
      exact WithTop.coe_lt_coe.2 (lt_of_le_of_lt h0 (by norm_num))
    rw [if_pos hn]
    obtain ⟨ext, sp', e', g1, g2, g3, -, g5⟩ := spokeLayers_spec h (fun _ => true) (V.P.pts i) uss hu 0 [⟨ic, sizeMax64, 0⟩] [] (by simp) (by simp) (by simp [h1])
    simp only [Nat.zero_add] at g2 g3 g5
    have hlev : ∀ a ∈ ext, 1 ≤ a.hits ∧ 0 < euclid V.P.dim (V.P.pts a.seed) (V.P.pts i) := by
      intro a ha
      obtain ⟨q1, q2, -⟩ := g2 a ha
      have hk : uss[a.level - 1]? = some (uss[a.level - 1]'(by omega)) := List.getElem?_eq_getElem _
      obtain ⟨l1, -⟩ := g3 (a.level - 1) _ hk
      obtain ⟨l2, l3⟩ := l1 a (by simp [ha]) (by omega)
      rw [l3] at l2
      obtain ⟨u, huu, b, hb⟩ := hitCount_pos l2
      exact ⟨by omega, spokeHit_apart h (hu _ (List.getElem_mem _) u huu) hb⟩
    refine ⟨_, ext, sp', e', ⟨?_, fun a ha => (g2 a ha).2.2.1, fun a ha => (hlev a ha).1, fun a ha => (hlev a ha).2⟩⟩
    simp only [List.singleton_append, List.map_cons, List.nodup_cons] at g1
    exact g1.2
  · have := h5 i hi rfl
    simp at this

theorem passDirs_unit {V : VpsIn} {U : Nat → Nat → Nat → Nat → ℝ} (hU : UnitDirs V U) (k : Nat) : ∀ us ∈ passDirs V U k, ∀ u ∈ us, UnitDir V.P.dim u := by
  intro us hus u hu
  obtain ⟨l, -, rfl⟩ := List.mem_map.1 hus
  obtain ⟨s, -, rfl⟩ := List.mem_map.1 hu
  exact hU k l s

theorem vpsNeighbors_spec (V : VpsIn) (h : RealTree V.P V.ln) {U : Nat → Nat → Nat → Nat → ℝ} (hU : UnitDirs V U) {i : Nat} (hi : i < V.P.num) (want : Nat) :
    ∀ fuel k old nb, vpsNeighbors V U (V.P.pts i) want fuel k old = some nb → ∃ a ext, nb = a :: ext ∧ FitSeeds V (V.P.pts i) ext := by
  intro fuel
  induction fuel with
  | zero => intro k old nb h; exact absurd h (by simp [vpsNeighbors])
  | succ fuel ih =>
    intro k old nb hv
    obtain ⟨a, ext, sp, e, hf⟩ := neighbors_at_seed V h hi (passDirs V U k) (passDirs_unit hU k)
    rw [vpsNeighbors, e] at hv
    simp only at hv
    by_cases h1 : old = (a :: ext).length
    · rw [if_pos h1] at hv
      exact ⟨a, ext, (Option.some.inj hv).symm, hf⟩
    · rw [if_neg h1] at hv
      by_cases h2 : want ≤ (a :: ext).length
      · rw [if_pos h2] at hv
        exact ⟨a, ext, (Option.some.inj hv).symm, hf⟩
      · rw [if_neg h2] at hv
        exact ih _ _ _ hv

/-! ## The order -/

/-- The list that `get_num_basis` and `evaluate_basis` enumerate. -/
structure Enumerates (V : VpsIn) (o : Nat) (L : List (Fin V.P.dim → Nat)) : Prop where
  list : BasisList V.total V.P.dim o L
  num : numBasis V.total V.P.dim o (basisFuel V o) = some L.length
  value : ∀ x y j α, L[j]? = some α → basisAt V o x y j = (basisValue V.cheb α fun d => y d - x d, ∑ i, α i)

theorem exists_enumerates (V : VpsIn) (hd : 0 < V.P.dim) (o : Nat) : ∃ L, Enumerates V o L := by
  obtain ⟨L, h1, h2, -, h4⟩ := C63_basis V.cheb V.total V.P.dim o hd
  obtain ⟨h5, h6⟩ := h4 (basisFuel V o) le_rfl
  refine ⟨L, ⟨h1, h2⟩, h5, fun x y j α hj => ?_⟩
  rw [basisAt, h6, hj]

theorem lowerOrder_spec (V : VpsIn) (hd : 0 < V.P.dim) (num : Nat) : ∀ order, ∃ o L, Enumerates V o L ∧ lowerOrder V num order = some (o, L.length) ∧ o ≤ order ∧ (o = 0 ∨ 2 * L.length ≤ num) ∧
    (∀ o', o < o' → o' ≤ order → ∀ L', BasisList V.total V.P.dim o' L' → num < 2 * L'.length) := by
  intro order
  induction order with
  | zero =>
    obtain ⟨L, hL⟩ := exists_enumerates V hd 0
    exact ⟨0, L, hL, by rw [lowerOrder, hL.num]; rfl, le_rfl, Or.inl rfl, fun o' _ _ => by omega⟩
  | succ o ih =>
    obtain ⟨L, hL⟩ := exists_enumerates V hd (o + 1)
    rw [lowerOrder, hL.num]
    simp only
    by_cases hn : num < 2 * L.length
    · rw [if_pos hn]
      obtain ⟨o1, L1, q1, q2, q3, q4, q5⟩ := ih
      refine ⟨o1, L1, q1, q2, by omega, q4, fun o' ho ho' L' hL' => ?_⟩
      by_cases he : o' = o + 1
      · subst he
        rwa [((List.perm_ext_iff_of_nodup hL'.1 hL.list.1).2 fun α => (hL'.2 α).trans (hL.list.2 α).symm).length_eq]
      · exact q5 o' ho (by omega) L' hL'
    · rw [if_neg hn]
      exact ⟨o + 1, L, hL, rfl, le_rfl, Or.inr (by omega), fun o' _ _ => by omega⟩

/-- From order one on there is at least one function for each coordinate. -/
theorem Enumerates.length_pos {V : VpsIn} {o : Nat} {L : List (Fin V.P.dim → Nat)} (h : Enumerates V (o + 1) L) (hd : 0 < V.P.dim) : 0 < L.length := by
  refine List.length_pos_of_mem ((h.list.2 fun i => if i = ⟨0, hd⟩ then 1 else 0).2 ⟨fun i => ?_, ⟨⟨0, hd⟩, by simp⟩, fun _ => by simp⟩)
  show (if i = ⟨0, hd⟩ then 1 else 0) ≤ o + 1
  split_ifs <;> omega

/-! ## The regression -/

theorem dstSqAt_eq (V : VpsIn) (x y : Nat → ℝ) : dstSqAt V x y = euclid V.P.dim y x ^ 2 := by
  rw [euclid_sq, dstSqAt]
  induction V.P.dim with
  | zero => rfl
  | succ n ih => rw [sumDim, ih, Finset.sum_range_succ, sq]

theorem vpsWeight_eq (V : VpsIn) (x : Nat → ℝ) (a : NbrRec) : vpsWeight V x a = hitWeight V x a := by
  rw [vpsWeight, hitWeight, dstSqAt_eq, div_pow, sq, sq]

theorem vps_sum_range {α : Type} (L : List α) (g : α → ℝ) (k : Nat → ℝ) (h : ∀ j a, L[j]? = some a → k j = g a) : ∑ j ∈ Finset.range L.length, k j = (L.map g).sum := by
  induction L generalizing k with
  | nil => simp
  | cons a L ih =>
    rw [List.length_cons, Finset.sum_range_succ', List.map_cons, List.sum_cons, ih (fun j => k (j + 1)) fun j b hb => h (j + 1) b (by simpa using hb), h 0 a (by simp)]
    ring

theorem residual_eq (V : VpsIn) {o : Nat} {L : List (Fin V.P.dim → Nat)} (hL : Enumerates V o L) (i : Nat) (nb : List NbrRec) (y : Nat → ℝ) (c : (Fin V.P.dim → Nat) → ℝ) (hc : ∀ j α, L[j]? = some α → y j = c α) :
    residual nb.length L.length (vpsMatrix V o (V.P.pts i) nb) (vpsRhs V i (V.P.pts i) nb) y = fitError V L i nb c := by
  unfold residual fitError
  refine vps_sum_range nb _ _ fun r a ha => ?_
  have hrow : ∑ j ∈ Finset.range L.length, vpsMatrix V o (V.P.pts i) nb r j * y j = hitWeight V (V.P.pts i) a * (L.map fun α => c α * basisValue V.cheb α fun d => V.P.pts a.seed d - V.P.pts i d).sum := by
    rw [← List.sum_map_mul_left]
    refine vps_sum_range L _ _ fun j α hj => ?_
    rw [vpsMatrix, ha]
    simp only
    rw [vpsWeight_eq, hL.value _ _ j α hj, hc j α hj]
    ring
  rw [hrow, vpsRhs, ha]
  simp only
  rw [vpsWeight_eq, expansion]
  ring

theorem far_eq (V : VpsIn) {o : Nat} {L : List (Fin V.P.dim → Nat)} (hL : Enumerates V o L) (i : Nat) (nb : List NbrRec) (r j : Nat) (hj : j < L.length) :
    vpsMatrix V o (V.P.pts i) nb r j = fitMatrix V L i nb r j := by
  rw [vpsMatrix, fitMatrix, List.getElem?_eq_getElem hj]
  cases h : nb[r]? with
  | none => rfl
  | some a =>
    simp only
    rw [vpsWeight_eq, hL.value _ _ j _ (List.getElem?_eq_getElem hj)]

theorem vpsSum_eq (V : VpsIn) {cell : VpsCell} {L : List (Fin V.P.dim → Nat)} (hL : Enumerates V cell.order L) (x z : Nat → ℝ) (f0 : ℝ) (c : (Fin V.P.dim → Nat) → ℝ)
    (hc : ∀ j α, L[j]? = some α → cell.coef j = some (c α)) : ∀ b, b ≤ L.length → vpsSum V cell x z f0 b = some (f0 + ((L.take b).map fun α => c α * basisValue V.cheb α fun d => z d - x d).sum) := by
  intro b
  induction b with
  | zero => intro _; simp [vpsSum]
  | succ b ih =>
    intro hb
    have hg : L[b]? = some (L[b]'(by omega)) := List.getElem?_eq_getElem _
    rw [vpsSum, ih (by omega), hc b _ hg, dmul_some, dadd_some, hL.value _ _ b _ hg, List.take_add_one, hg, List.map_append, List.sum_append, ← add_assoc]
    simp

theorem exists_coef {α : Type} [DecidableEq α] (L : List α) (hn : L.Nodup) (y : Nat → ℝ) : ∃ c : α → ℝ, ∀ j a, L[j]? = some a → c a = y j := by
  refine ⟨fun a => y (L.idxOf a), fun j a hj => ?_⟩
  obtain ⟨h1, rfl⟩ := List.getElem?_eq_some_iff.1 hj
  simp only
  rw [List.Nodup.idxOf_getElem hn]

/-- What the neighbours `nb` of seed `i` give: the regression with the functions `L`. -/
theorem vpsFit_spec (V : VpsIn) (hs : 0 < V.spokes) {o : Nat} (hd : 0 < V.P.dim) {L : List (Fin V.P.dim → Nat)} (hL : Enumerates V (o + 1) L) {i : Nat} {a : NbrRec} {nb : List NbrRec} (hn : FitSeeds V (V.P.pts i) nb)
    (hlen : 2 * L.length ≤ nb.length + 1) : ∃ cell, vpsFit V i (V.P.pts i) (a :: nb) (o + 1) L.length = some cell ∧ cell.order = o + 1 ∧ ((∀ j, j < L.length → ColumnFar nb.length (fitMatrix V L i nb) j) →
      ∃ c, (∀ j α, L[j]? = some α → cell.coef j = some (c α)) ∧ ∀ c', fitError V L i nb c ≤ fitError V L i nb c' ∧ (fitError V L i nb c' = fitError V L i nb c → ∀ α ∈ L, c' α = c α)) := by
  have hpos := hL.length_pos hd
  have hno : ¬ ∃ b ∈ (a :: nb).tail, dstSqAt V (V.P.pts i) (V.P.pts b.seed) = 0 ∨ V.spokes = 0 := by
    rintro ⟨b, hb, h0 | h0⟩
    · rw [dstSqAt_eq] at h0
      have := hn.apart b hb
      rw [pow_eq_zero_iff two_ne_zero] at h0
      linarith
    · omega
  rw [vpsFit, if_neg hno]
  simp only [List.tail_cons, List.length_cons, Nat.add_sub_cancel]
  obtain ⟨x, hx⟩ : ∃ x, lsSolve nb.length L.length (vpsMatrix V (o + 1) (V.P.pts i) nb) (vpsRhs V i (V.P.pts i) nb) (fun _ => some 0) = some x := by
    unfold lsSolve householder
    rw [if_neg (by omega)]
    simp only
    rw [if_neg (by omega)]
    exact ⟨_, rfl⟩
  rw [hx]
  refine ⟨_, rfl, rfl, fun hfar => ?_⟩
  obtain ⟨x', y, e, h1, h2⟩ := C95_full_rank nb.length L.length (by omega) hpos (vpsMatrix V (o + 1) (V.P.pts i) nb) (vpsRhs V i (V.P.pts i) nb) (fun _ => some 0) fun j hj c => by
    have : residual nb.length j (vpsMatrix V (o + 1) (V.P.pts i) nb) (fun r => vpsMatrix V (o + 1) (V.P.pts i) nb r j) c = residual nb.length j (fitMatrix V L i nb) (fun r => fitMatrix V L i nb r j) c := by
      unfold residual
      refine Finset.sum_congr rfl fun r _ => ?_
      simp only
      rw [far_eq V hL i nb r j hj, Finset.sum_congr rfl fun l hl => by rw [far_eq V hL i nb r l (by have := Finset.mem_range.1 hl; omega)]]
    rw [this]
    exact hfar j hj c
  obtain rfl : x' = x := Option.some.inj (e.symm.trans hx)
  obtain ⟨c, hc⟩ := exists_coef L hL.list.1 y
  refine ⟨c, fun j α hj => by simp only; rw [h1 j (List.getElem?_eq_some_iff.1 hj).1, hc j α hj], fun c' => ?_⟩
  have hy := residual_eq V hL i nb y c fun j α hj => (hc j α hj).symm
  have key : ∃ y' : Nat → ℝ, ∀ j α, L[j]? = some α → y' j = c' α := ⟨fun j => match L[j]? with | some α => c' α | none => 0, fun j α hj => by simp only [hj]⟩
  obtain ⟨y', hy'⟩ := key
  have hr' := residual_eq V hL i nb y' c' hy'
  obtain ⟨g1, g2⟩ := h2 y'
  rw [hy, hr'] at g1
  refine ⟨g1, fun he α hα => ?_⟩
  obtain ⟨j, hj, rfl⟩ := List.mem_iff_getElem.1 hα
  have hg : L[j]? = some L[j] := List.getElem?_eq_getElem hj
  rw [← hy' j _ hg, hc j _ hg]
  exact g2 (by rw [hy, hr', he]) j hj

/-- **C99, the regression.** For every tree, seed, order and directions: if the search for neighbours ends, the model of a cell exists.  Its order is the largest one, not above the desired one, for which there are at least
twice as many neighbours as functions.  With order zero its value is that of the seed.  Otherwise there are different seeds away from this one, each ending a spoke, and if the functions are more than `1e-10`
from being dependent there, the value at any point is an expansion around the seed, and no other expansion has a smaller sum of weighted squares of the errors at these seeds. -/
theorem C99_regression (V : VpsIn) (h : RealTree V.P V.ln) (hs : 0 < V.spokes) (U : Nat → Nat → Nat → Nat → ℝ) (hU : UnitDirs V U) (i : Nat) (hi : i < V.P.num) (L0 : List (Fin V.P.dim → Nat))
    (hL0 : BasisList V.total V.P.dim V.order L0) (fuel : Nat) (all : List NbrRec) (hall : vpsNeighbors V U (V.P.pts i) (2 * L0.length) fuel 0 0 = some all) :
    ∃ cell L a nb, buildVps V U i fuel = some cell ∧ BasisList V.total V.P.dim cell.order L ∧ cell.order ≤ V.order ∧ all = a :: nb ∧ FitSeeds V (V.P.pts i) nb ∧
      (∀ o, cell.order < o → o ≤ V.order → ∀ L', BasisList V.total V.P.dim o L' → all.length < 2 * L'.length) ∧
      (cell.order = 0 → ∀ cells, cells i = cell → ∀ z, evalCell V cells i z = some (some (V.f i))) ∧
      (0 < cell.order → 2 * L.length ≤ all.length ∧ ((∀ j, j < L.length → ColumnFar nb.length (fitMatrix V L i nb) j) →
        ∃ c, (∀ cells, cells i = cell → ∀ z, evalCell V cells i z = some (some (expansion V L c (V.f i) (V.P.pts i) z))) ∧
          ∀ c', fitError V L i nb c ≤ fitError V L i nb c' ∧ (fitError V L i nb c' = fitError V L i nb c → ∀ α ∈ L, c' α = c α))) := by
  have hd := h.2.1
  obtain ⟨a, nb, rfl, hnb⟩ := vpsNeighbors_spec V h hU hi _ _ _ _ _ hall
  have zero : ∀ L, Enumerates V 0 L → ∀ c : Nat → Dbl, ∀ cells : Nat → VpsCell, cells i = ⟨0, c⟩ → ∀ z, evalCell V cells i z = some (some (V.f i)) := by
    intro L hL c cells hc z
    have hl : L.length = 0 := by
      rw [List.length_eq_zero_iff, List.eq_nil_iff_forall_not_mem]
      intro α hα
      obtain ⟨g1, ⟨j, hj⟩, -⟩ := (hL.list.2 α).1 hα
      have := g1 j
      omega
    rw [evalCell, if_pos hi, hc]
    simp only
    rw [hL.num, hl]
    rfl
  rw [buildVps, if_pos hi]
  by_cases ho : V.order = 0
  · rw [if_pos ho]
    obtain ⟨L, hL⟩ := exists_enumerates V hd 0
    exact ⟨_, L, a, nb, rfl, hL.list, Nat.zero_le _, rfl, hnb, fun o h1 h2 => by simp only at h1; omega, fun _ => zero L hL _, fun h => absurd h (lt_irrefl _)⟩
  rw [if_neg ho]
  obtain ⟨L1, hL1⟩ := exists_enumerates V hd V.order
  have hlen : L1.length = L0.length := ((List.perm_ext_iff_of_nodup hL1.list.1 hL0.1).2 fun α => (hL1.list.2 α).trans (hL0.2 α).symm).length_eq
  rw [hL1.num]
  simp only
  rw [hlen, hall]
  simp only
  obtain ⟨o, L, hL, e, h1, h2, h3⟩ := lowerOrder_spec V hd (a :: nb).length V.order
  rw [vpsFromNeighbors, e]
  cases o with
  | zero => exact ⟨_, L, a, nb, rfl, hL.list, Nat.zero_le _, rfl, hnb, h3, fun _ => zero L hL _, fun h => absurd h (lt_irrefl _)⟩
  | succ o =>
    simp only
    have h2' : 2 * L.length ≤ nb.length + 1 := by
      rcases h2 with h2 | h2
      · omega
      · exact h2
    obtain ⟨cell, e1, e2, e3⟩ := vpsFit_spec V hs hd hL (a := a) hnb h2'
    have hL' : Enumerates V cell.order L := by rw [e2]; exact hL
    refine ⟨cell, L, a, nb, e1, hL'.list, by omega, rfl, hnb, by rw [e2]; exact h3, fun h => by omega, fun _ => ⟨h2', fun hfar => ?_⟩⟩
    obtain ⟨c, c1, c2⟩ := e3 hfar
    refine ⟨c, fun cells hc z => ?_, c2⟩
    rw [evalCell, if_pos hi, hc, hL'.num, Option.map_some, vpsSum_eq V hL' _ _ _ c c1 L.length le_rfl, List.take_length]
    rfl

/-! ## Functions that are reproduced -/

/-- `g` is an expansion around `x` in the functions of the basis. -/
def Expands (V : VpsIn) (L : List (Fin V.P.dim → Nat)) (x : Nat → ℝ) (g : (Nat → ℝ) → ℝ) : Prop := ∃ c, ∀ z, g z = expansion V L c (g x) x z

theorem fitError_nonneg (V : VpsIn) (L : List (Fin V.P.dim → Nat)) (i : Nat) (nb : List NbrRec) (c : (Fin V.P.dim → Nat) → ℝ) : 0 ≤ fitError V L i nb c := by
  refine List.sum_nonneg fun r hr => ?_
  obtain ⟨a, -, rfl⟩ := List.mem_map.1 hr
  exact sq_nonneg _

theorem expansion_congr (V : VpsIn) (L : List (Fin V.P.dim → Nat)) {c c' : (Fin V.P.dim → Nat) → ℝ} (h : ∀ α ∈ L, c' α = c α) (f0 : ℝ) (x z : Nat → ℝ) : expansion V L c' f0 x z = expansion V L c f0 x z := by
  unfold expansion
  rw [List.map_congr_left fun α hα => by rw [h α hα]]

theorem fitError_zero (V : VpsIn) (L : List (Fin V.P.dim → Nat)) (i : Nat) (nb : List NbrRec) (c : (Fin V.P.dim → Nat) → ℝ)
    (h : ∀ a ∈ nb, V.f a.seed = expansion V L c (V.f i) (V.P.pts i) (V.P.pts a.seed)) : fitError V L i nb c = 0 := by
  unfold fitError
  rw [List.map_congr_left (g := fun _ => (0 : ℝ)) fun a ha => by rw [h a ha]; ring]
  simp

theorem expansion_finset (V : VpsIn) {o : Nat} {L : List (Fin V.P.dim → Nat)} (hL : BasisList V.total V.P.dim o L) (c : (Fin V.P.dim → Nat) → ℝ) (f0 : ℝ) (x z : Nat → ℝ) :
    expansion V L c f0 x z = f0 + ∑ α ∈ L.toFinset, c α * basisValue V.cheb α fun d => z d - x d := by
  rw [expansion, List.sum_toFinset _ hL.1]

/-- The multi-index of one coordinate. -/
def unitIdx {d : Nat} (k : Fin d) : Fin d → Nat := fun i => if i = k then 1 else 0

theorem basisValue_unit (cheb : Bool) {d : Nat} (k : Fin d) (w : Nat → ℝ) : basisValue cheb (unitIdx k) w = w k := by
  unfold basisValue unitIdx
  rw [Finset.prod_eq_single k]
  · cases cheb <;> simp
  · intro j _ hj
    cases cheb <;> simp [hj]
  · simp

theorem unitIdx_mem {total : Bool} {d o : Nat} {L : List (Fin d → Nat)} (hL : BasisList total d o L) (ho : 0 < o) (k : Fin d) : unitIdx k ∈ L := by
  refine (hL.2 _).2 ⟨fun i => ?_, ⟨k, by simp [unitIdx]⟩, fun _ => ?_⟩
  · unfold unitIdx; split_ifs <;> omega
  · unfold unitIdx; simp; omega

theorem unitIdx_inj {d : Nat} {k l : Fin d} (h : unitIdx k = unitIdx l) : k = l := by
  by_contra hne
  have := congrFun h k
  simp [unitIdx, hne] at this

/-- Affine functions are expansions, for both bases and every order from one on. -/
theorem affine_expands (V : VpsIn) {o : Nat} {L : List (Fin V.P.dim → Nat)} (hL : BasisList V.total V.P.dim o L) (ho : 0 < o) (x : Nat → ℝ) (b : ℝ) (v : Nat → ℝ) :
    Expands V L x fun z => b + ∑ d ∈ Finset.range V.P.dim, v d * z d := by
  refine ⟨fun α => ∑ k : Fin V.P.dim, if α = unitIdx k then v k else 0, fun z => ?_⟩
  rw [expansion_finset V hL, Finset.sum_congr rfl fun α _ => Finset.sum_mul _ _ _, Finset.sum_comm]
  have : ∀ k : Fin V.P.dim, ∑ α ∈ L.toFinset, (if α = unitIdx k then v k else 0) * basisValue V.cheb α (fun d => z d - x d) = v k * (z k - x k) := fun k => by
    rw [Finset.sum_eq_single (unitIdx k)]
    · rw [if_pos rfl, basisValue_unit]
    · intro α _ hα; rw [if_neg hα, zero_mul]
    · intro hn; exact absurd (List.mem_toFinset.2 (unitIdx_mem hL ho k)) hn
  simp only
  rw [Finset.sum_congr rfl fun k _ => this k, Finset.sum_range fun d => v d * z d, Finset.sum_range fun d => v d * x d, add_assoc, ← Finset.sum_add_distrib]
  congr 1
  exact Finset.sum_congr rfl fun k _ => by ring

/-- The polynomial `p (w + x)` in `w`. -/
noncomputable def shiftPoly {d : Nat} (p : MvPolynomial (Fin d) ℝ) (x : Fin d → ℝ) : MvPolynomial (Fin d) ℝ :=
  ∑ m ∈ p.support, MvPolynomial.C (p.coeff m) * ∏ i, (MvPolynomial.X i + MvPolynomial.C (x i)) ^ m i

theorem shiftPoly_eval {d : Nat} (p : MvPolynomial (Fin d) ℝ) (x w : Fin d → ℝ) : MvPolynomial.eval w (shiftPoly p x) = MvPolynomial.eval (fun i => w i + x i) p := by
  rw [MvPolynomial.eval_eq' _ p, shiftPoly]
  simp

theorem shiftPoly_degree {d : Nat} (p : MvPolynomial (Fin d) ℝ) (x : Fin d → ℝ) : (shiftPoly p x).totalDegree ≤ p.totalDegree := by
  refine MvPolynomial.totalDegree_finsetSum_le fun m hm => ?_
  refine (MvPolynomial.totalDegree_mul _ _).trans ?_
  rw [MvPolynomial.totalDegree_C, zero_add]
  refine (MvPolynomial.totalDegree_finsetProd _ _).trans ?_
  refine le_trans (Finset.sum_le_sum fun i _ => ?_) ((Finsupp.sum_fintype m (fun _ e => e) (fun _ => rfl)).symm.le.trans (MvPolynomial.le_totalDegree hm))
  refine (MvPolynomial.totalDegree_pow _ _).trans ?_
  have h1 : (MvPolynomial.X i + MvPolynomial.C (x i) : MvPolynomial (Fin d) ℝ).totalDegree ≤ 1 :=
    (MvPolynomial.totalDegree_add _ _).trans (by rw [MvPolynomial.totalDegree_C, MvPolynomial.totalDegree_X]; simp)
  calc m i * _ ≤ m i * 1 := Nat.mul_le_mul_left _ h1
    _ = m i := mul_one _

/-- Polynomials are expansions in monomials. -/
theorem poly_expands (V : VpsIn) {o : Nat} {L : List (Fin V.P.dim → Nat)} (hL : BasisList V.total V.P.dim o L) (hm : V.cheb = false) (x : Nat → ℝ) (p : MvPolynomial (Fin V.P.dim) ℝ) (hp : p.totalDegree ≤ o) :
    Expands V L x fun z => MvPolynomial.eval (fun i : Fin V.P.dim => z i) p := by
  set q := shiftPoly p fun i => x i with hq
  have hval : ∀ z : Nat → ℝ, MvPolynomial.eval (fun i : Fin V.P.dim => z i) p = MvPolynomial.eval (fun i : Fin V.P.dim => z i - x i) q := fun z => by
    rw [hq, shiftPoly_eval]
    simp
  refine ⟨fun α => q.coeff (Finsupp.equivFunOnFinite.symm α), fun z => ?_⟩
  simp only
  rw [expansion_finset V hL, hval z, hval x, MvPolynomial.eval_eq', MvPolynomial.eval_eq']
  have hz : ∑ m ∈ q.support, q.coeff m * ∏ i : Fin V.P.dim, (x i - x i) ^ m i = q.coeff 0 := by
    rw [Finset.sum_eq_single 0]
    · simp
    · intro m _ hm0
      obtain ⟨i, hi⟩ := Finsupp.ne_iff.1 hm0
      rw [Finset.prod_eq_zero (Finset.mem_univ i), mul_zero]
      rw [sub_self, zero_pow hi]
    · intro h0
      rw [MvPolynomial.notMem_support_iff.1 h0, zero_mul]
  rw [hz]
  have hsum : ∀ α : Fin V.P.dim → Nat, basisValue V.cheb α (fun d => z d - x d) = ∏ i : Fin V.P.dim, (z i - x i) ^ (Finsupp.equivFunOnFinite.symm α) i := fun α => by
    unfold basisValue
    rw [hm]
    simp
  rw [Finset.sum_congr (s₁ := L.toFinset) rfl fun (α : Fin V.P.dim → Nat) _ => congrArg (q.coeff (Finsupp.equivFunOnFinite.symm α) * ·) (hsum α)]
  have hmap := Finset.sum_map L.toFinset Finsupp.equivFunOnFinite.symm.toEmbedding fun m => q.coeff m * ∏ i : Fin V.P.dim, (z i - x i) ^ m i
  simp only [Equiv.coe_toEmbedding] at hmap
  rw [← hmap]
  have h0 : (0 : Fin V.P.dim →₀ ℕ) ∉ L.toFinset.map Finsupp.equivFunOnFinite.symm.toEmbedding := by
    intro hmem
    obtain ⟨α, hα, he⟩ := Finset.mem_map.1 hmem
    obtain ⟨-, ⟨i, hi⟩, -⟩ := (hL.2 α).1 (List.mem_toFinset.1 hα)
    have := DFunLike.congr_fun he i
    simp at this
    exact hi this
  have key : q.coeff 0 = q.coeff 0 * ∏ i : Fin V.P.dim, (z i - x i) ^ (0 : Fin V.P.dim →₀ ℕ) i := by simp
  rw [key, ← Finset.sum_insert (f := fun m => q.coeff m * ∏ i : Fin V.P.dim, (z i - x i) ^ m i) h0]
  refine Finset.sum_subset (fun m hms => ?_) fun m _ hms => by rw [MvPolynomial.notMem_support_iff.1 hms, zero_mul]
  rw [Finset.mem_insert]
  by_cases hm0 : m = 0
  · exact Or.inl hm0
  · refine Or.inr (Finset.mem_map.2 ⟨fun i => m i, List.mem_toFinset.2 ((hL.2 _).2 ?_), by ext i; simp⟩)
    have hdeg : ∑ i, m i ≤ o := by
      have := (MvPolynomial.le_totalDegree hms).trans ((shiftPoly_degree p _).trans hp)
      rwa [Finsupp.sum_fintype _ _ fun _ => rfl] at this
    refine ⟨fun i => (Finset.single_le_sum (fun j _ => Nat.zero_le (m j)) (Finset.mem_univ i)).trans hdeg, ?_, fun _ => hdeg⟩
    obtain ⟨i, hi⟩ := Finsupp.ne_iff.1 hm0
    exact ⟨i, hi⟩

/-- **C99, reproduction.** For every tree, seed, order and directions for which the search for neighbours ends: if the order of the cell is not zero and the functions are more than `1e-10` from being dependent at its
neighbours, then a function known at the seeds is reproduced everywhere if it is an expansion around the seed in the functions of the basis.  This is so for every affine function, and with monomials for
every polynomial whose degree is not above the order of the cell. -/
theorem C99_reproduced (V : VpsIn) (h : RealTree V.P V.ln) (hs : 0 < V.spokes) (U : Nat → Nat → Nat → Nat → ℝ) (hU : UnitDirs V U) (i : Nat) (hi : i < V.P.num) (L0 : List (Fin V.P.dim → Nat))
    (hL0 : BasisList V.total V.P.dim V.order L0) (fuel : Nat) (all : List NbrRec) (hall : vpsNeighbors V U (V.P.pts i) (2 * L0.length) fuel 0 0 = some all) :
    ∃ cell L, buildVps V U i fuel = some cell ∧ BasisList V.total V.P.dim cell.order L ∧
      (0 < cell.order → (∀ j, j < L.length → ColumnFar all.tail.length (fitMatrix V L i all.tail) j) → ∀ cells, cells i = cell →
        (∀ g, (∀ k, k < V.P.num → V.f k = g (V.P.pts k)) → Expands V L (V.P.pts i) g → ∀ z, evalCell V cells i z = some (some (g z))) ∧
        (∀ (b : ℝ) (v : Nat → ℝ), (∀ k, k < V.P.num → V.f k = b + ∑ d ∈ Finset.range V.P.dim, v d * V.P.pts k d) → ∀ z, evalCell V cells i z = some (some (b + ∑ d ∈ Finset.range V.P.dim, v d * z d))) ∧
        (V.cheb = false → ∀ p : MvPolynomial (Fin V.P.dim) ℝ, p.totalDegree ≤ cell.order → (∀ k, k < V.P.num → V.f k = MvPolynomial.eval (fun d : Fin V.P.dim => V.P.pts k d) p) →
          ∀ z, evalCell V cells i z = some (some (MvPolynomial.eval (fun d : Fin V.P.dim => z d) p)))) := by
  obtain ⟨cell, L, a, nb, h1, h2, -, rfl, h3, -, -, h4⟩ := C99_regression V h hs U hU i hi L0 hL0 fuel all hall
  refine ⟨cell, L, h1, h2, fun ho hfar cells hc => ?_⟩
  rw [List.tail_cons] at hfar
  obtain ⟨c, h5, h6⟩ := (h4 ho).2 hfar
  have main : ∀ g, (∀ k, k < V.P.num → V.f k = g (V.P.pts k)) → Expands V L (V.P.pts i) g → ∀ z, evalCell V cells i z = some (some (g z)) := by
    rintro g hg ⟨c', hc'⟩ z
    have he : fitError V L i nb c' = 0 := fitError_zero V L i nb c' fun b hb => by rw [hg _ (h3.valid b hb), hg i hi]; exact hc' _
    have h7 := (h6 c').1
    have h8 := fitError_nonneg V L i nb c
    rw [h5 cells hc z, ← expansion_congr V L ((h6 c').2 (by linarith)), hg i hi, ← hc']
  exact ⟨main, fun b v hf => main _ hf (affine_expands V h2 ho _ b v), fun hm p hp hf => main _ hf (poly_expands V h2 hm _ p hp)⟩

/-! ## The other functions that evaluate -/

/-- **C99, evaluation.** The value at a point is that of the cell of a seed nearest to it, and 0 when there are no seeds. -/
theorem C99_nearest (V : VpsIn) (h : RealTree V.P V.ln) (cells : Nat → VpsCell) (z : Nat → ℝ) :
    (V.P.num = 0 ∧ evalVps V cells z = some (some 0)) ∨
    ∃ i, i < V.P.num ∧ (∀ k, k < V.P.num → euclid V.P.dim z (V.P.pts i) ≤ euclid V.P.dim z (V.P.pts k)) ∧ evalVps V cells z = evalCell V cells i z := by
  rcases Nat.eq_zero_or_pos V.P.num with h0 | h0
  · exact Or.inl ⟨h0, by rw [evalVps, if_pos h0]⟩
  right
  obtain ⟨ic, hc, e, hq⟩ := C06_closest_is_exhaustive V.P V.ln h (fun _ => true) z false ⊤ le_top
  rcases hq with ⟨h1, -, -, -, h5⟩ | ⟨-, -, h5⟩
  · exact ⟨ic, h1, fun k hk => h5 k hk rfl, by rw [evalVps, if_neg (by omega), e]⟩
  · have := h5 0 h0 rfl
    simp at this

theorem errSum_some (V : VpsIn) (cell : VpsCell) (x z : Nat → ℝ) : ∀ b, (∀ j, j < b → ∃ c, cell.coef j = some c) → ∃ e, errSum V cell x z b = some e ∧ 0 ≤ e ∧
    ∀ j c, j < b → cell.coef j = some c → (basisAt V cell.order x z j).2 = cell.order → |c * (basisAt V cell.order x z j).1| ≤ e ∧ 1e-4 * |(basisAt V cell.order x z j).1| ≤ e := by
  intro b
  induction b with
  | zero => exact fun _ => ⟨0, rfl, le_rfl, fun j c hj => absurd hj (by omega)⟩
  | succ b ih =>
    intro hc
    obtain ⟨e, e1, e2, e3⟩ := ih fun j hj => hc j (by omega)
    rw [errSum]
    by_cases ho : (basisAt V cell.order x z b).2 = cell.order
    · obtain ⟨c, hcb⟩ := hc b (by omega)
      rw [if_pos ho, e1, hcb, Option.map_some, dadd_some]
      have hn := abs_nonneg (errCoef c * (basisAt V cell.order x z b).1)
      refine ⟨_, rfl, by linarith, fun j c' hj hj' hjo => ?_⟩
      by_cases hjb : j < b
      · obtain ⟨g1, g2⟩ := e3 j c' hjb hj' hjo
        exact ⟨by linarith, by linarith⟩
      · obtain rfl : j = b := by omega
        obtain rfl : c = c' := Option.some.inj (hcb.symm.trans hj')
        rw [abs_mul] at hn ⊢
        have h1 : |c| ≤ |errCoef c| ∧ 1e-4 ≤ |errCoef c| := by
          unfold errCoef
          split_ifs with h
          · rw [abs_of_nonneg (show (0 : ℝ) ≤ 1e-4 by norm_num)]
            exact ⟨h.le, le_rfl⟩
          · rw [abs_abs]
            exact ⟨le_rfl, not_lt.1 h⟩
        have hb := abs_nonneg (basisAt V cell.order x z j).1
        rw [abs_mul]
        exact ⟨by nlinarith [mul_le_mul_of_nonneg_right h1.1 hb], by nlinarith [mul_le_mul_of_nonneg_right h1.2 hb]⟩
    · rw [if_neg ho]
      refine ⟨e, e1, e2, fun j c' hj hj' hjo => ?_⟩
      by_cases hjb : j < b
      · exact e3 j c' hjb hj' hjo
      · obtain rfl : j = b := by omega
        exact absurd hjo ho

theorem sumDim_sum (g : Nat → ℝ) : ∀ n, sumDim g n = ∑ d ∈ Finset.range n, g d
  | 0 => rfl
  | n + 1 => by rw [sumDim, sumDim_sum g n, Finset.sum_range_succ]

/-- **C99, the estimate of the error.** The function with an estimate gives the same value.  If the coefficients are numbers the estimate is one and not negative: with order zero it is `1e-4` times the sum of the distances in
the coordinates, otherwise not less than the contribution of any function of full degree. -/
theorem C99_estimate (V : VpsIn) (cells : Nat → VpsCell) (i : Nat) (hi : i < V.P.num) (z : Nat → ℝ) (L : List (Fin V.P.dim → Nat)) (hL : Enumerates V (cells i).order L)
    (hc : ∀ j, j < L.length → ∃ c, (cells i).coef j = some c) : ∃ v e, evalCell V cells i z = some v ∧ evalCellErr V cells i z = some (v, some e) ∧ 0 ≤ e ∧
      ((cells i).order = 0 → e = 1e-4 * ∑ d ∈ Finset.range V.P.dim, |V.P.pts i d - z d|) ∧
      (0 < (cells i).order → ∀ j α c, L[j]? = some α → (cells i).coef j = some c → ∑ k, α k = (cells i).order → |c * basisValue V.cheb α fun d => z d - V.P.pts i d| ≤ e) := by
  have hnum := hL.num
  by_cases ho : (cells i).order = 0
  · rw [ho] at hnum
    have hl : L.length = 0 := by
      rw [List.length_eq_zero_iff, List.eq_nil_iff_forall_not_mem]
      intro α hα
      obtain ⟨g1, ⟨j, hj⟩, -⟩ := (hL.list.2 α).1 hα
      have := g1 j
      omega
    refine ⟨some (V.f i), 1e-4 * ∑ d ∈ Finset.range V.P.dim, |V.P.pts i d - z d|, ?_, ?_, ?_, fun _ => rfl, fun h => absurd h (by omega)⟩
    · rw [evalCell, if_pos hi, ho, hnum, hl]
      rfl
    · rw [evalCellErr, if_pos hi, if_pos ho, errZero, sumDim_sum, ← Finset.mul_sum]
    · exact mul_nonneg (by norm_num) (Finset.sum_nonneg fun _ _ => abs_nonneg _)
  · obtain ⟨e, e1, e2, e3⟩ := errSum_some V (cells i) (V.P.pts i) z L.length hc
    refine ⟨_, e, by rw [evalCell, if_pos hi, hnum]; rfl, ?_, e2, fun h => absurd h ho, fun _ j α c hj hcj hα => ?_⟩
    · rw [evalCellErr, if_pos hi, if_neg ho, hnum, Option.map_some, e1]
    · have hv := hL.value (V.P.pts i) z j α hj
      have := (e3 j c (List.getElem?_eq_some_iff.1 hj).1 hcj (by rw [hv]; exact hα)).1
      rwa [hv] at this

end VoroCrust
