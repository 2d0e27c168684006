import Verif.Props.Vps

/-! # C99: with the default basis a seed does not get its own value -/

namespace VoroCrust

open Classical

/-- The seeds 0, 1, 2 and 3 of a line. -/
noncomputable def fourPoints : PointStore ℝ :=
  { pts := upd (upd (upd (upd (fun _ _ => 0) 0 (fun _ => 0)) 1 (fun _ => 1)) 2 (fun _ => 2)) 3 (fun _ => 3), num := 4, dim := 1, lt := realLt }

/-- The links when they are added in this order. -/
def fourLinks : Links where
  left := upd (upd (upd (upd (fun k => k) 0 0) 1 1) 2 2) 3 3
  right := upd (upd (upd (upd (upd (upd (upd (fun k => k) 0 0) 1 1) 0 1) 2 2) 1 2) 3 3) 2 3
  origin := some 0
  height := 4

theorem fourPoints_tree : RealTree fourPoints fourLinks := by
  refine ⟨rfl, Nat.one_pos, BuiltTree.inserted (dim := 1) realLt (fun _ _ => false) [fun _ => 0, fun _ => 1, fun _ => 2, fun _ => 3] (fun _ _ => 0) id id
    { pts := fourPoints.pts, num := 4, cap := 100, links := fourLinks } ?_ (by simp)⟩
  simp [addTreePoints, addTreePoint, SmartTree.empty, kdAddPoint, insertWalk, upd, fourPoints, fourLinks, realLt, nextDim]
  rw [if_pos (by norm_num)]
  rfl

theorem four_pt (q : Nat) (hq : q < 4) (d : Nat) : fourPoints.pts q d = q := by
  interval_cases q <;> simp [fourPoints, upd]

theorem four_unit : UnitDir 1 (fun _ => 1) := by unfold UnitDir euclid; norm_num

/-- The spoke from the first seed to the right, when the seeds before `m` are left out. -/
theorem four_trim (m : Nat) (hm : m < 4) (old : List Nat) (hold : ∀ q, q < 4 → (q ∈ old ↔ q < m)) (h0 : 0 < m) :
    ∃ t : ℝ, trimSpoke fourPoints fourLinks (fun _ => true) (fun _ => 0) old (fun _ => 0) (fun _ => 1) (4, ⊤) = some (m, (t : WithTop ℝ)) := by
  obtain ⟨nb, len, e, h | h⟩ := C88_trim_spoke fourPoints fourLinks fourPoints_tree (fun _ => true) (fun _ => 0) old (fun _ => 0) (fun _ => 1) four_unit
    (by intro q hq he; rw [euclid_self]; exact euclid_nonneg _ _ _)
  · obtain ⟨t, rfl, ht⟩ := h
    have hv : nb < 4 := ht.valid
    have hnb : m ≤ nb := by
      have := ht.counts.2
      rw [hold nb hv] at this
      omega
    have heq := congrArg (· ^ 2) ht.equal
    have hdim : fourPoints.dim = 1 := rfl
    simp only [euclid_sq, hdim, Finset.sum_range_one, four_pt nb hv, along] at heq
    have hin := ht.inside m hm ⟨rfl, by rw [hold m hm]; omega⟩ t ht.nonneg le_rfl
    simp only [euclid_sq, hdim, Finset.sum_range_one, four_pt m hm, along] at hin
    have hnb1 : (1 : ℝ) ≤ nb := by exact_mod_cast (show 1 ≤ nb by omega)
    have ht2 : t = nb / 2 := by nlinarith
    have : nb = m := by
      by_contra hne
      have h1 : (m : ℝ) + 1 ≤ nb := by exact_mod_cast (show m + 1 ≤ nb by omega)
      have h2 : (1 : ℝ) ≤ m := by exact_mod_cast h0
      have h3 : (nb : ℝ) ≤ 3 := by exact_mod_cast (show nb ≤ 3 by omega)
      rw [ht2] at hin
      nlinarith
    subst this
    exact ⟨t, e⟩
  · exfalso
    have := h.2.2 m hm ⟨rfl, by rw [hold m hm]; omega⟩ 4 (by norm_num)
    have hdim : fourPoints.dim = 1 := rfl
    simp only [euclid_sq, hdim, Finset.sum_range_one, four_pt m hm, along] at this
    have h2 : (1 : ℝ) ≤ m := by exact_mod_cast h0
    have h3 : (m : ℝ) ≤ 3 := by exact_mod_cast (show m ≤ 3 by omega)
    nlinarith

theorem four_closest : ∃ hc, closestQuery Rounding.exact fourPoints fourLinks (fun _ => true) (fun _ => 0) false ⊤ = some (0, hc) ∧ hc < ((1e-10 : ℝ) : WithTop ℝ) := by
  obtain ⟨ic, hc, e, h | h⟩ := C06_closest_is_exhaustive fourPoints fourLinks fourPoints_tree (fun _ => true) (fun _ => 0) false ⊤ le_top
  · obtain ⟨h1, -, h3, -, h5⟩ := h
    have h1' : ic < 4 := h1
    have h0 := h5 0 (by decide) rfl
    have hz : euclid fourPoints.dim (fun _ => 0) (fourPoints.pts 0) = 0 := by
      rw [← sq_eq_zero_iff, euclid_sq]
      simp [four_pt 0 (by norm_num)]
    have hic : ic = 0 := by
      rw [hz] at h0
      have hn := euclid_nonneg fourPoints.dim (fun _ => 0) (fourPoints.pts ic)
      have : euclid fourPoints.dim (fun _ => 0) (fourPoints.pts ic) ^ 2 = 0 := by rw [le_antisymm h0 hn]; norm_num
      rw [euclid_sq, show fourPoints.dim = 1 from rfl, Finset.sum_range_one, four_pt ic h1'] at this
      have : (ic : ℝ) = 0 := by nlinarith
      exact_mod_cast this
    subst hic
    refine ⟨hc, e, ?_⟩
    rw [h3, hz]
    exact WithTop.coe_lt_coe.2 (by norm_num)
  · exact absurd (h.2.2 0 (by decide) rfl) (by simp)

/-- The neighbours found with `k` layers. -/
def fourNbrs : Nat → List NbrRec
  | 0 => [⟨0, sizeMax64, 0⟩]
  | k + 1 => fourNbrs k ++ [⟨k + 1, 1, k + 1⟩]

theorem fourNbrs_seed (k : Nat) (q : Nat) : q ∈ (fourNbrs k).map NbrRec.seed ↔ q < k + 1 := by
  induction k with
  | zero => simp [fourNbrs]
  | succ k ih => rw [fourNbrs, List.map_append, List.mem_append, ih]; simp; omega

theorem fourNbrs_length (k : Nat) : (fourNbrs k).length = k + 1 := by
  induction k with
  | zero => rfl
  | succ k ih => rw [fourNbrs, List.length_append, ih]; rfl

theorem four_layer (k : Nat) (hk : k + 1 < 4) : ∃ sp, spokeLayer fourPoints fourLinks (fun _ => true) (fun _ => 0) ((fourNbrs k).map NbrRec.seed) k [fun _ => 1] (fourNbrs k) = some (fourNbrs (k + 1), sp) := by
  obtain ⟨t, e⟩ := four_trim (k + 1) hk ((fourNbrs k).map NbrRec.seed) (fun q _ => fourNbrs_seed k q) (by omega)
  refine ⟨[⟨fun d => 0 + t * 1, some (k + 1)⟩], ?_⟩
  rw [spokeLayer, show fourPoints.num = 4 from rfl, e]
  simp only [spokeLayer]
  have := addHit_append (k + 1) (k + 1) (fourNbrs k) [] fun a ha he => by
    have := (fourNbrs_seed k a.seed).1 (List.mem_map_of_mem ha)
    omega
  rw [List.append_nil] at this
  rw [this]
  rfl

theorem four_layers : ∀ n k sp, k + n < 4 → ∃ sp', spokeLayers fourPoints fourLinks (fun _ => true) (fun _ => 0) (List.replicate n [fun _ => 1]) k ((fourNbrs k).map NbrRec.seed) (fourNbrs k) sp = some (fourNbrs (k + n), sp') := by
  intro n
  induction n with
  | zero => intro k sp _; exact ⟨sp, rfl⟩
  | succ n ih =>
    intro k sp hk
    obtain ⟨sp1, e⟩ := four_layer k (by omega)
    obtain ⟨sp2, e2⟩ := ih (k + 1) sp1 (by omega)
    refine ⟨sp2, ?_⟩
    rw [List.replicate_succ, spokeLayers, e]
    simp only
    rw [e2, show k + 1 + n = k + (n + 1) by omega]

/-- The squares of the coordinates, the default basis, order 2. -/
noncomputable def fourVps : VpsIn where
  cheb := true
  total := false
  P := fourPoints
  ln := fourLinks
  f := fun k => (k : ℝ) ^ 2
  order := 2
  spokes := 1

theorem four_pass (k : Nat) (hk : k < 3) : ∃ sp, voronoiNeighbors fourPoints fourLinks (fun _ => true) (fun _ => 0) (passDirs fourVps (fun _ _ _ _ => 1) k) = some (fourNbrs (k + 1), sp) := by
  obtain ⟨hc, e, h⟩ := four_closest
  obtain ⟨sp, e2⟩ := four_layers (k + 1) 0 [] (by omega)
  refine ⟨sp, ?_⟩
  rw [voronoiNeighbors, e]
  simp only
  rw [if_pos h]
  have : passDirs fourVps (fun _ _ _ _ => 1) k = List.replicate (k + 1) [fun _ => 1] := by
    unfold passDirs
    rw [show fourVps.spokes = 1 from rfl]
    have h1 : (List.range 1).map (fun _ => (fun _ => 1 : Nat → ℝ)) = [fun _ => 1] := rfl
    simp only [h1]
    rw [List.map_const', List.length_range]
  rw [this]
  rw [Nat.zero_add] at e2
  exact e2

theorem four_pts0 : fourVps.P.pts 0 = fun _ => 0 := by funext d; simp [fourVps, four_pt 0 (by norm_num)]

theorem four_neighbors : vpsNeighbors fourVps (fun _ _ _ _ => 1) (fourVps.P.pts 0) 4 3 0 0 = some (fourNbrs 3) := by
  rw [four_pts0]
  obtain ⟨s0, e0⟩ := four_pass 0 (by norm_num)
  obtain ⟨s1, e1⟩ := four_pass 1 (by norm_num)
  obtain ⟨s2, e2⟩ := four_pass 2 (by norm_num)
  simp only [vpsNeighbors, show fourVps.P = fourPoints from rfl, show fourVps.ln = fourLinks from rfl, Nat.zero_add, e0, e1, e2, fourNbrs_length]
  simp

/-- The functions of the basis in dimension 1, order 2: degree 1 and degree 2. -/
theorem four_basis {L : List (Fin 1 → Nat)} (hL : BasisList false 1 2 L) : L = [fun _ => 1, fun _ => 2] ∨ L = [fun _ => 2, fun _ => 1] := by
  have h1 : ∀ α : Fin 1 → Nat, α ∈ L ↔ α = (fun _ => 1) ∨ α = (fun _ => 2) := by
    intro α
    rw [hL.2 α]
    have hα : α = fun _ => α 0 := by funext i; rw [Subsingleton.elim i 0]
    constructor
    · rintro ⟨g1, ⟨i, hi⟩, -⟩
      have h1 := g1 0
      have h2 : α 0 ≠ 0 := by rw [Subsingleton.elim (0 : Fin 1) i]; exact hi
      have h3 : α 0 = 1 ∨ α 0 = 2 := by omega
      rcases h3 with h3 | h3
      · left; rw [hα, h3]
      · right; rw [hα, h3]
    · rintro (rfl | rfl)
      · exact ⟨fun _ => by norm_num, ⟨0, by norm_num⟩, fun _ => by simp⟩
      · exact ⟨fun _ => by norm_num, ⟨0, by norm_num⟩, fun _ => by simp⟩
  have hne : (fun _ => 1 : Fin 1 → Nat) ≠ fun _ => 2 := fun h => absurd (congrFun h 0) (by norm_num)
  have hp : L.Perm [fun _ => 1, fun _ => 2] := (List.perm_ext_iff_of_nodup hL.1 (by rw [List.nodup_cons]; exact ⟨by rw [List.mem_singleton]; exact hne, List.nodup_singleton _⟩)).2 fun α => by rw [h1 α]; simp
  have hlen := hp.length_eq
  match L, hlen with
  | [a, b], _ =>
    have ha := (h1 a).1 (by simp)
    have hb := (h1 b).1 (by simp)
    have hab : a ≠ b := fun h => by have := hL.1; simp [h] at this
    rcases ha with rfl | rfl <;> rcases hb with rfl | rfl
    · exact absurd rfl hab
    · exact Or.inl rfl
    · exact Or.inr rfl
    · exact absurd rfl hab

theorem four_value (k : Nat) (w : ℝ) : basisValue true (d := 1) (fun _ => k) (fun _ => w) = (Polynomial.Chebyshev.T ℝ k).eval w := by
  unfold basisValue
  simp

theorem cheb_two (w : ℝ) : (Polynomial.Chebyshev.T ℝ (2 : ℕ)).eval w = 2 * w ^ 2 - 1 := by
  have := Polynomial.Chebyshev.T_two ℝ
  push_cast
  rw [this]
  simp

theorem four_weight (q : Nat) (hq : q < 4) (l : Nat) : hitWeight fourVps (fun _ => 0) ⟨q, 1, l⟩ = 1 / (q : ℝ) ^ 2 := by
  unfold hitWeight
  rw [div_pow, euclid_sq]
  simp [fourVps, show fourPoints.dim = 1 from rfl, four_pt q hq]

/-- The seeds of the regression. -/
def fourFit : List NbrRec := [⟨1, 1, 1⟩, ⟨2, 1, 2⟩, ⟨3, 1, 3⟩]

theorem four_diff (q : Nat) (hq : q < 4) : (fun d => fourVps.P.pts q d - fourVps.P.pts 0 d) = fun _ => (q : ℝ) := by
  funext d
  rw [four_pts0]
  simp [fourVps, four_pt q hq]

theorem cheb_one (w : ℝ) : (Polynomial.Chebyshev.T ℝ (1 : ℕ)).eval w = w := by simp

theorem four_expansion (L : List (Fin 1 → Nat)) (hL : L = [fun _ => 1, fun _ => 2] ∨ L = [fun _ => 2, fun _ => 1]) (c : (Fin 1 → Nat) → ℝ) (f0 : ℝ) (x z : Nat → ℝ) (w : ℝ) (hw : (fun d => z d - x d) = fun _ => w) :
    expansion fourVps L c f0 x z = f0 + c (fun _ => 1) * w + c (fun _ => 2) * (2 * w ^ 2 - 1) := by
  have h1 : basisValue (d := 1) true (fun _ => 1) (fun d => z d - x d) = w := by rw [hw, four_value, cheb_one]
  have h2 : basisValue (d := 1) true (fun _ => 2) (fun d => z d - x d) = 2 * w ^ 2 - 1 := by rw [hw, four_value, cheb_two]
  have h3 : expansion fourVps L c f0 x z = f0 + (L.map fun α => c α * basisValue (d := 1) true α fun d => z d - x d).sum := rfl
  rw [h3]
  rcases hL with rfl | rfl
  · simp only [List.map_cons, List.map_nil, List.sum_cons, List.sum_nil, h1, h2]; ring
  · simp only [List.map_cons, List.map_nil, List.sum_cons, List.sum_nil, h1, h2]; ring

theorem four_error (L : List (Fin 1 → Nat)) (hL : L = [fun _ => 1, fun _ => 2] ∨ L = [fun _ => 2, fun _ => 1]) (c : (Fin 1 → Nat) → ℝ) : fitError fourVps L 0 fourFit c =
    (c (fun _ => 1) + c (fun _ => 2) - 1) ^ 2 + (c (fun _ => 1) / 2 + 7 / 4 * c (fun _ => 2) - 1) ^ 2 + (c (fun _ => 1) / 3 + 17 / 9 * c (fun _ => 2) - 1) ^ 2 := by
  have key : ∀ q l : Nat, q < 4 → (hitWeight fourVps (fourVps.P.pts 0) ⟨q, 1, l⟩ * (expansion fourVps L c (fourVps.f 0) (fourVps.P.pts 0) (fourVps.P.pts q) - fourVps.f q)) ^ 2 =
      (1 / (q : ℝ) ^ 2 * (c (fun _ => 1) * q + c (fun _ => 2) * (2 * (q : ℝ) ^ 2 - 1) - (q : ℝ) ^ 2)) ^ 2 := fun q l hq => by
    rw [four_expansion L hL c _ _ _ q (four_diff q hq), four_pts0, four_weight q hq l]
    simp [fourVps]
  unfold fitError fourFit
  simp only [List.map_cons, List.map_nil, List.sum_cons, List.sum_nil]
  rw [key 1 1 (by norm_num), key 2 2 (by norm_num), key 3 3 (by norm_num)]
  norm_num
  ring

theorem fitMatrix_some (V : VpsIn) (L : List (Fin V.P.dim → Nat)) (i : Nat) (nb : List NbrRec) (r j : Nat) (a : NbrRec) (α : Fin V.P.dim → Nat) (h1 : nb[r]? = some a) (h2 : L[j]? = some α) :
    fitMatrix V L i nb r j = hitWeight V (V.P.pts i) a * basisValue V.cheb α fun d => V.P.pts a.seed d - V.P.pts i d := by
  unfold fitMatrix
  rw [h1, h2]

theorem four_entry (L : List (Fin 1 → Nat)) (r j k : Nat) (hj : L[j]? = some fun _ => k) (hr : r < 3) : fitMatrix fourVps L 0 fourFit r j = 1 / ((r : ℝ) + 1) ^ 2 * (Polynomial.Chebyshev.T ℝ k).eval ((r : ℝ) + 1) := by
  have h1 : fourFit[r]? = some ⟨r + 1, 1, r + 1⟩ := by interval_cases r <;> rfl
  rw [fitMatrix_some fourVps L 0 fourFit r j _ _ h1 hj]
  simp only
  rw [four_diff (r + 1) (by omega), four_pts0, four_weight (r + 1) (by omega)]
  have := four_value k ((r + 1 : ℕ) : ℝ)
  refine (congrArg (1 / ((r + 1 : ℕ) : ℝ) ^ 2 * ·) this).trans ?_
  push_cast
  rfl

theorem four_far (L : List (Fin 1 → Nat)) (hL : L = [fun _ => 1, fun _ => 2] ∨ L = [fun _ => 2, fun _ => 1]) : ∀ j, j < L.length → ColumnFar fourFit.length (fitMatrix fourVps L 0 fourFit) j := by
  intro j hj c
  rw [show fourFit.length = 3 from rfl]
  rcases hL with rfl | rfl
  · have e0 := fun r hr => four_entry [fun _ => 1, fun _ => 2] r 0 1 rfl hr
    have e1 := fun r hr => four_entry [fun _ => 1, fun _ => 2] r 1 2 rfl hr
    have hj : j < 2 := hj
    interval_cases j
    · simp only [residual, Finset.sum_range_succ, Finset.sum_range_zero]
      rw [e0 0 (by norm_num), e0 1 (by norm_num), e0 2 (by norm_num)]
      simp only [cheb_one]
      norm_num
    · simp only [residual, Finset.sum_range_succ, Finset.sum_range_zero]
      rw [e0 0 (by norm_num), e0 1 (by norm_num), e0 2 (by norm_num), e1 0 (by norm_num), e1 1 (by norm_num), e1 2 (by norm_num)]
      simp only [cheb_one, cheb_two]
      norm_num
      nlinarith [sq_nonneg (c 0 - 2), sq_nonneg (c 0 - 1), sq_nonneg (c 0 / 2 - 7 / 4), sq_nonneg (c 0 / 3 - 17 / 9)]
  · have e0 := fun r hr => four_entry [fun _ => 2, fun _ => 1] r 0 2 rfl hr
    have e1 := fun r hr => four_entry [fun _ => 2, fun _ => 1] r 1 1 rfl hr
    have hj : j < 2 := hj
    interval_cases j
    · simp only [residual, Finset.sum_range_succ, Finset.sum_range_zero]
      rw [e0 0 (by norm_num), e0 1 (by norm_num), e0 2 (by norm_num)]
      simp only [cheb_two]
      norm_num
    · simp only [residual, Finset.sum_range_succ, Finset.sum_range_zero]
      rw [e0 0 (by norm_num), e0 1 (by norm_num), e0 2 (by norm_num), e1 0 (by norm_num), e1 1 (by norm_num), e1 2 (by norm_num)]
      simp only [cheb_one, cheb_two]
      norm_num
      nlinarith [sq_nonneg (c 0 - 1 / 2), sq_nonneg (c 0 - 1), sq_nonneg (7 / 4 * c 0 - 1 / 2), sq_nonneg (17 / 9 * c 0 - 1 / 3)]

/-- **C99 is false for the value at a seed with the default basis.** The seeds 0, 1, 2 and 3 of a line, the function `x²` known there, the default basis and order 2, spokes to the right: all four seeds are
used, and the value of the surrogate at seed 0 is not the one given there.  The reason: the Chebyshev polynomial of degree two is not zero at zero, and there is no constant in the basis. -/
theorem C99_default_basis_false : RealTree fourVps.P fourVps.ln ∧ UnitDirs fourVps (fun _ _ _ _ => 1) ∧ fourVps.cheb = true ∧ fourVps.total = false ∧ (∀ k, k < 4 → fourVps.f k = fourVps.P.pts k 0 ^ 2) ∧
    ∃ cell, buildVps fourVps (fun _ _ _ _ => 1) 0 3 = some cell ∧ cell.order = 2 ∧ ∀ cells, cells 0 = cell → ∃ v, evalVps fourVps cells (fourVps.P.pts 0) = some (some v) ∧ v ≠ fourVps.f 0 := by
  refine ⟨fourPoints_tree, fun _ _ _ => four_unit, rfl, rfl, fun k hk => by simp [fourVps, four_pt k hk], ?_⟩
  have hne : (fun _ => 1 : Fin 1 → Nat) ≠ fun _ => 2 := fun h => absurd (congrFun h 0) (by norm_num)
  obtain ⟨L0, hL0⟩ := exists_enumerates fourVps Nat.one_pos 2
  have hlen0 : L0.length = 2 := by rcases four_basis hL0.list with h | h <;> rw [h] <;> rfl
  obtain ⟨cell, L, a, nb, h1, h2, h3, h4, -, h6, -, h8⟩ := C99_regression fourVps fourPoints_tree Nat.one_pos (fun _ _ _ _ => 1) (fun _ _ _ => four_unit) 0 (by decide) L0 hL0.list 3 (fourNbrs 3)
    (by rw [hlen0]; exact four_neighbors)
  have ho : cell.order = 2 := by
    by_contra hne
    have h3' : cell.order ≤ 2 := h3
    have := h6 2 (by omega) le_rfl L0 hL0.list
    rw [hlen0, fourNbrs_length] at this
    omega
  obtain rfl : nb = fourFit := by
    have : fourNbrs 3 = ⟨0, sizeMax64, 0⟩ :: fourFit := rfl
    rw [this] at h4
    exact (List.cons.inj h4).2.symm
  rw [ho] at h2
  have hL := four_basis h2
  obtain ⟨c, h9, h10⟩ := (h8 (by omega)).2 (four_far L hL)
  change (Fin 1 → Nat) → ℝ at c
  refine ⟨cell, h1, ho, fun cells hc => ⟨-c (fun _ => 2), ?_, ?_⟩⟩
  · obtain ⟨hc0, e, -⟩ := four_closest
    rw [evalVps, if_neg (by decide), four_pts0]
    rw [show closestQuery Rounding.exact fourVps.P fourVps.ln (fun _ => true) (fun _ => 0) false ⊤ = _ from e]
    simp only
    have e2 := four_expansion L hL c (fourVps.f 0) (fourVps.P.pts 0) (fun _ => 0) 0 (by rw [four_pts0]; simp)
    have e3 : fourVps.f 0 = 0 := by simp [fourVps]
    rw [h9 cells hc, show expansion fourVps L c (fourVps.f 0) (fourVps.P.pts 0) (fun _ => 0) = -c (fun _ => 2) from e2.trans (by rw [e3]; ring)]
  · intro hv
    have hz : c (fun _ => 2) = 0 := by simpa [fourVps] using hv
    have hmin := (h10 fun α => if α = (fun _ => 1) then 0.6 else 0.4).1
    have a1 := four_error L hL c
    have a2 := four_error L hL fun α => if α = (fun _ => 1) then 0.6 else 0.4
    have hm := (a1.symm.le.trans hmin).trans a2.le
    rw [if_pos rfl, if_neg hne.symm, hz] at hm
    nlinarith [sq_nonneg (c (fun _ => 1) - 66 / 49)]

end VoroCrust
