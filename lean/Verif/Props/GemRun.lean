import Verif.Props.GemSheets
import Verif.Props.RunCase

/-! # The run for the octahedron: C110 is not vacuous -/

namespace VoroCrust

open Classical

/-! ## The sharp edge -/

noncomputable abbrev gemF : Features := featuresOf gemZ none

theorem gemF_edge {i : Nat} {s : SeedRec} (h : gemF.edges[i]? = some s) : i < 4 ∧ s = ⟨gemSphere (i + 2), 33, 0⟩ := by
  obtain ⟨hi, rfl⟩ := List.getElem?_eq_some_iff.1 h
  have hi : i < 4 := hi
  refine ⟨hi, ?_⟩
  interval_cases i <;> rfl

theorem gemF_get {i : Nat} (hi : i < 4) : gemF.edges[i]? = some ⟨gemSphere (i + 2), 33, 0⟩ := by interval_cases i <;> rfl

theorem gem_equator {i j : Nat} (hi : i < 4) (hj : j < 4) : euclid 3 (gemSphere (i + 2)) (gemSphere (j + 2)) ^ 2 = if i = j then 0 else if (i + j) % 2 = 1 then 3042 else 6084 := by
  rw [euclid3_sq]
  interval_cases i <;> interval_cases j <;> norm_num [gemSphere, gemI]

theorem gem_meet {i j : Nat} (hi : i < 4) (hj : j < 4) (h : (i + j) % 2 = 1) : 0 < euclid 3 (gemSphere (i + 2)) (gemSphere (j + 2)) ∧ euclid 3 (gemSphere (i + 2)) (gemSphere (j + 2)) < 66 := by
  have e := gem_equator hi hj
  rw [if_neg (by omega), if_pos h] at e
  have h0 := euclid_nonneg 3 (gemSphere (i + 2)) (gemSphere (j + 2))
  constructor
  · rcases h0.lt_or_eq with h1 | h1
    · exact h1
    · rw [← h1] at e; norm_num at e
  · nlinarith

theorem gem_next {i : Nat} {s n : SeedRec} {e : Option (Nat → ℝ)} (hs : gemF.edges[i]? = some s) (h : NextTo gemF i s e n) : ∃ j, j < 4 ∧ (i + j) % 2 = 1 ∧ n = ⟨gemSphere (j + 2), 33, 0⟩ := by
  obtain ⟨hi, rfl⟩ := gemF_edge hs
  rcases h with ⟨⟨j, hj, hj2, -⟩, hd⟩ | ⟨-, j, hj, -⟩
  · obtain ⟨hj4, rfl⟩ := gemF_edge hj
    refine ⟨j, hj4, ?_, rfl⟩
    by_contra hc
    have e := gem_equator hi hj4
    rw [if_neg (fun h => hj2.1 h.symm), if_neg hc] at e
    have h0 := euclid_nonneg 3 (gemSphere (i + 2)) (gemSphere (j + 2))
    simp only at hd
    nlinarith
  · rw [show gemF.corners = [] from recsOf_nil rfl] at hj
    simp at hj

theorem gem_hasNext {i : Nat} {s : SeedRec} {e : Option (Nat → ℝ)} (hs : gemF.edges[i]? = some s) (h : ∃ k, k < 4 ∧ (i + k) % 2 = 1 ∧ Ahead s.x e (gemSphere (k + 2))) : HasNext gemF i s e := by
  obtain ⟨hi, rfl⟩ := gemF_edge hs
  obtain ⟨k, hk, hki, ha⟩ := h
  refine ⟨⟨k, _, gemF_get hk, by omega, ha⟩, ?_⟩
  rintro q ⟨j, hj, hj2, hmin⟩ hq
  obtain ⟨hj4, rfl⟩ := gemF_edge hj
  have h1 := (gem_meet hi hk hki).2
  have h2 := hmin k _ (gemF_get hk) ⟨by omega, ha⟩
  simp only at hq h2
  linarith

theorem gem_edgesOK : EdgesOK gemF := by
  have hm : ∀ {i j : Nat}, i < 4 → j < 4 → (i + j) % 2 = 1 → Meet ⟨gemSphere (i + 2), 33, 0⟩ ⟨gemSphere (j + 2), 33, 0⟩ := fun hi hj h => by
    obtain ⟨h1, h2⟩ := gem_meet hi hj h
    exact ⟨h1, by simpa using h1.le, by simp only; linarith⟩
  intro i s hs
  obtain ⟨hi, rfl⟩ := gemF_edge hs
  refine ⟨gem_hasNext hs ⟨(i + 1) % 4, by omega, by omega, fun v hv => by simp at hv⟩, fun n hn => ?_⟩
  obtain ⟨j, hj, hij, rfl⟩ := gem_next hs hn
  refine ⟨hm hi hj hij, gem_hasNext hs ⟨(j + 2) % 4, by omega, by omega, ?_⟩, fun m hm' => ?_⟩
  · intro v hv
    obtain rfl := Option.some.inj hv
    clear hn hs hv hm
    interval_cases i <;> interval_cases j <;> first | omega | (norm_num [gemSphere, gemI, dotN, awayFrom])
  · obtain ⟨k, hk, hki, rfl⟩ := gem_next hs hm'
    exact hm hi hk hki

/-- Every draw is useful whose directions include one across the plane of the equator. -/
theorem gem_draws {vs : Nat → Bool → List (Nat → ℝ)} {ys : Nat → Bool → List (ℝ × ℝ)} (hv : ∀ i b, ptN 0 0 1 ∈ vs i b) (hy : ∀ i b, ∀ y ∈ ys i b, y.1 ^ 2 + y.2 ^ 2 = 1) : AllDrawsOK gemF vs ys := by
  have key : ∀ {i j k : Nat} {b : Bool}, i < 4 → j < 4 → DrawsOK ⟨gemSphere (i + 2), 33, 0⟩ ⟨gemSphere (j + 2), 33, 0⟩ (vs k b) (ys k b) := by
    intro i j k b hi hj
    refine ⟨⟨ptN 0 0 1, hv k b, ?_⟩, hy k b⟩
    have h : unitN (awayFrom ⟨gemSphere (i + 2), 33, 0⟩ ⟨gemSphere (j + 2), 33, 0⟩) 2 = 0 := by
      have : gemSphere (i + 2) 2 = 0 ∧ gemSphere (j + 2) 2 = 0 := by constructor <;> interval_cases i <;> interval_cases j <;> norm_num [gemSphere, gemI]
      simp [unitN, awayFrom, this]
    unfold UsefulDir
    have h2 : dotN (ptN 0 0 1) (unitN (awayFrom ⟨gemSphere (i + 2), 33, 0⟩ ⟨gemSphere (j + 2), 33, 0⟩)) = 0 := by unfold dotN; rw [h]; simp [ptN]
    rw [h2]
    norm_num [dotN, ptN]
  intro i s hs n hn
  obtain ⟨hi, rfl⟩ := gemF_edge hs
  obtain ⟨j, hj, -, rfl⟩ := gem_next hs hn
  refine ⟨key hi hj, fun m hm => ?_⟩
  obtain ⟨k, hk, -, rfl⟩ := gem_next hs hm
  exact key hi hk

/-- No seed is added on the circle of two neighbours: four seeds lie on it already. -/
theorem gem_circle {xs : List SeedRec} (hl : xs.length = 16) (hx : ∀ (q : Nat) (b : SeedRec), xs[q]? = some b → b.x = mergedSeed (gemSide 18) (gemSide 8) q) {i j : Nat} (hi : i < 4) (hj : j < 4) (h : (i + j) % 2 = 1)
    {y : List (ℝ × ℝ)} {o : Option SeedRec} (hc : CircleOutcome xs gemF ⟨gemSphere (i + 2), 33, 0⟩ ⟨gemSphere (j + 2), 33, 0⟩ y o) : o = none := by
  obtain ⟨c, r, e1, e2, hC, ⟨a, -, -, -, -, -, -, -, -, hfew⟩ | ⟨hn, -⟩⟩ := hc
  swap
  · exact hn
  exfalso
  obtain ⟨t, ht⟩ := hC.line
  have he := gem_equator hi hj
  rw [if_neg (by omega), if_pos h, euclid3_sq] at he
  have h1 := hC.first
  have h2 := hC.second
  simp only at ht h1 h2
  rw [euclid3_sq, ht 0, ht 1, ht 2] at h1 h2
  have ht2 : t = 1 / 2 := by nlinarith
  subst ht2
  have hr2 : r ^ 2 = 657 / 2 := by nlinarith
  have hr18 : 18 < r := by
    have := hC.radius
    nlinarith
  have key : ∀ i j : Fin 4, (i.val + j.val) % 2 = 1 → ∃ v : Fin 4, (∀ d : Fin 2, gemSign v d = gemI (i + 2) d + gemI (j + 2) d ∧ gemSign (v + 4) d = gemI (i + 2) d + gemI (j + 2) d) ∧ gemSign v 2 = 1 ∧ gemSign (v + 4) 2 = -1 ∧
      gemI (i + 2) 2 = 0 ∧ gemI (j + 2) 2 = 0 ∧ ∀ d : Fin 2, gemSign v d = 1 ∨ gemSign v d = -1 := by decide +kernel
  obtain ⟨v, hv, z1, z2, z3, z4, hv'⟩ := key ⟨i, hi⟩ ⟨j, hj⟩ h
  have hv4 := v.2
  have a0 := hv 0
  have a1 := hv 1
  simp only [Fin.val_zero, Fin.val_one] at a0 a1 z3 z4
  have hc0 : c 0 = 39 / 2 * (gemSign v 0 : ℝ) := by rw [ht 0, a0.1]; simp only [gemSphere, Nat.reduceLT, if_true]; push_cast; ring
  have hc1 : c 1 = 39 / 2 * (gemSign v 1 : ℝ) := by rw [ht 1, a1.1]; simp only [gemSphere, Nat.reduceLT, if_true]; push_cast; ring
  have hc2 : c 2 = 0 := by rw [ht 2]; simp only [gemSphere, Nat.reduceLT, if_true, z3, z4]; norm_num
  have g0 : (gemSign (v + 4) 0 : ℝ) = gemSign v 0 := by exact_mod_cast a0.2.trans a0.1.symm
  have g1 : (gemSign (v + 4) 1 : ℝ) = gemSign v 1 := by exact_mod_cast a1.2.trans a1.1.symm
  have g2 : (gemSign v 2 : ℝ) = 1 := by exact_mod_cast z1
  have g2' : (gemSign (v + 4) 2 : ℝ) = -1 := by exact_mod_cast z2
  have s0 : (gemSign v 0 : ℝ) = 1 ∨ (gemSign v 0 : ℝ) = -1 := by rcases hv' 0 with h | h <;> simp only [Fin.val_zero] at h <;> simp [h]
  have s1 : (gemSign v 1 : ℝ) = 1 ∨ (gemSign v 1 : ℝ) = -1 := by rcases hv' 1 with h | h <;> simp only [Fin.val_one] at h <;> simp [h]
  have seed : ∀ q, q = v.val ∨ q = v + 4 ∨ q = v + 8 → ∃ p, xs[q]? = some p ∧ euclidSq 3 c p.x < (1 + 2e-6) * r ^ 2 ∧ ∀ d, d < 3 → |c d - p.x d| < r := fun q hq => by
    have hq16 : q < xs.length := by rw [hl]; omega
    have e := List.getElem?_eq_getElem hq16
    refine ⟨_, e, ?_⟩
    rw [hx q _ e]
    have e0 := gem_merged (q := q) (d := 0) (by norm_num)
    have e1 := gem_merged (q := q) (d := 1) (by norm_num)
    have e2 := gem_merged (q := q) (d := 2) (by norm_num)
    rcases hq with rfl | rfl | rfl
    · simp only [gemPosi, show v.val < 8 by omega, if_true] at e0 e1 e2
      push_cast at e0 e1 e2
      rw [g2] at e2
      constructor
      · simp only [euclidSq, Finset.sum_range_succ, Finset.sum_range_zero]
        rw [hc0, hc1, hc2, e0, e1, e2, hr2]
        rcases s0 with s0 | s0 <;> rcases s1 with s1 | s1 <;> rw [s0, s1] <;> norm_num
      · intro d hd
        interval_cases d
        · rw [hc0, e0, abs_lt]; rcases s0 with s0 | s0 <;> rw [s0] <;> constructor <;> linarith
        · rw [hc1, e1, abs_lt]; rcases s1 with s1 | s1 <;> rw [s1] <;> constructor <;> linarith
        · rw [hc2, e2, abs_lt]; constructor <;> linarith
    · simp only [gemPosi, show v.val + 4 < 8 by omega, if_true] at e0 e1 e2
      push_cast at e0 e1 e2
      rw [g2'] at e2
      rw [g0] at e0
      rw [g1] at e1
      constructor
      · simp only [euclidSq, Finset.sum_range_succ, Finset.sum_range_zero]
        rw [hc0, hc1, hc2, e0, e1, e2, hr2]
        rcases s0 with s0 | s0 <;> rcases s1 with s1 | s1 <;> rw [s0, s1] <;> norm_num
      · intro d hd
        interval_cases d
        · rw [hc0, e0, abs_lt]; rcases s0 with s0 | s0 <;> rw [s0] <;> constructor <;> linarith
        · rw [hc1, e1, abs_lt]; rcases s1 with s1 | s1 <;> rw [s1] <;> constructor <;> linarith
        · rw [hc2, e2, abs_lt]; constructor <;> linarith
    · simp only [gemPosi, show ¬ v.val + 8 < 8 by omega, if_false, Nat.add_sub_cancel] at e0 e1 e2
      push_cast at e0 e1 e2
      rw [g2] at e2
      constructor
      · simp only [euclidSq, Finset.sum_range_succ, Finset.sum_range_zero]
        rw [hc0, hc1, hc2, e0, e1, e2, hr2]
        rcases s0 with s0 | s0 <;> rcases s1 with s1 | s1 <;> rw [s0, s1] <;> norm_num
      · intro d hd
        interval_cases d
        · rw [hc0, e0, abs_lt]; rcases s0 with s0 | s0 <;> rw [s0] <;> constructor <;> linarith
        · rw [hc1, e1, abs_lt]; rcases s1 with s1 | s1 <;> rw [s1] <;> constructor <;> linarith
        · rw [hc2, e2, abs_lt]; constructor <;> linarith
  have := hfew [v.val, v + 4, v + 8] (by simp) fun q hq => seed q (by simpa using hq)
  simp at this

/-! ## Regions -/

theorem gem_regions {reg : Nat → Nat} {nb j0 : Nat → Nat} {α : Nat → Nat → ℝ} (hf : EdgeFrames gemZ (gemSide 18) (gemSide 8) nb j0 α)
    (hs : ∀ s t, s < 16 → t < 16 → (reg s = reg t ↔ JoinedSeeds gemZ (gemSide 18) (gemSide 8) nb α s t)) (ho : OutsideZero (gemSide 18) (gemSide 8) reg) {q : Nat} (hq : q < 16) : reg q = 0 ↔ q < 8 := by
  obtain ⟨x, e, hx, he, hr, hn⟩ := ho
  have he : e < 16 := he
  have hx' : ∀ d, d < 3 → x d = 90 := fun d hd => by
    obtain ⟨i, j, hi, hj, e1, hb⟩ := hx d
    have hi : i < 16 := hi
    have hj : j < 16 := hj
    have b : ∀ q : Fin 16, ∀ d : Fin 3, -18 ≤ gemPosi q d ∧ gemPosi q d ≤ 18 := by decide +kernel
    have c : ∀ d : Fin 3, ∃ p q : Fin 16, gemPosi p d = -18 ∧ gemPosi q d = 18 := by decide +kernel
    obtain ⟨p, q, hp, hq⟩ := c ⟨d, hd⟩
    have b1 := (hb p (by exact p.2)).1
    have b2 := (hb q (by exact q.2)).2
    rw [gem_merged hd, gem_merged hd] at b1
    rw [gem_merged hd, gem_merged hd] at b2
    rw [gem_merged hd, gem_merged hd] at e1
    have c1 := (b ⟨i, hi⟩ ⟨d, hd⟩).1
    have c2 := (b ⟨j, hj⟩ ⟨d, hd⟩).2
    simp only at hp hq c1 c2
    rw [hp] at b1
    rw [hq] at b2
    have f1 : gemPosi i d = -18 := le_antisymm (by exact_mod_cast b1) c1
    have f2 : gemPosi j d = 18 := le_antisymm c2 (by exact_mod_cast b2)
    rw [e1, f1, f2]
    norm_num
  have he8 : e < 8 := by
    by_contra hge
    have h0 := hn 0 (by show 0 < 8 + 8; norm_num)
    have g : euclid 3 x (mergedSeed (gemSide 18) (gemSide 8) 0) ^ 2 = 15552 := by
      rw [euclid3_sq, hx' 0 (by norm_num), hx' 1 (by norm_num), hx' 2 (by norm_num), gem_merged (by norm_num), gem_merged (by norm_num), gem_merged (by norm_num)]
      norm_num [gemPosi, gemSign]
    have g' : 15552 < euclid 3 x (mergedSeed (gemSide 18) (gemSide 8) e) ^ 2 := by
      rw [euclid3_sq, hx' 0 (by norm_num), hx' 1 (by norm_num), hx' 2 (by norm_num), gem_merged (by norm_num), gem_merged (by norm_num), gem_merged (by norm_num)]
      interval_cases e <;> first | omega | norm_num [gemPosi, gemSign]
    have := pow_le_pow_left₀ (euclid_nonneg _ _ _) h0 2
    linarith
  constructor
  · intro h0
    exact (gem_sides hf ((hs e q he hq).1 (hr.trans h0.symm))).1 he8
  · intro hq8
    rw [← hr]
    exact (hs q e hq he).2 (gem_outer hf hq8 he8)

/-! ## The interior -/

/-- Options: a VCG file and nothing else. -/
noncomputable def gemSetup : MeshSetup := ⟨fun _ _ => false, none, 1 / 4, 100, 1, id, id, none, false, true, false⟩

/-- Random numbers: useful directions, any candidates on the circles. -/
def gemDraws (ys : Nat → Bool → List (ℝ × ℝ)) (inputs : List RoundInput) : RunDraws := ⟨fun _ _ => [ptN 0 0 1], ys, fun _ => 0, [], inputs, fun _ => 0⟩

theorem gem_setup {ys : Nat → Bool → List (ℝ × ℝ)} {inputs : List RoundInput} (h : ∀ inp ∈ inputs, inp.OK) : gemSetup.OK gemZ (gemSide 18) (gemSide 8) (gemDraws ys inputs) :=
  ⟨monotone_id, fun _ => rfl, by norm_num [gemSetup], fun t ht => by simp [gemSetup] at ht, fun t ht => by simp [gemSetup] at ht, h, fun _ => by norm_num [gemDraws], fun _ _ h => by simp [gemSetup] at h⟩

theorem gem_ready {ys : Nat → Bool → List (ℝ × ℝ)} (hy : ∀ i b, ∀ y ∈ ys i b, y.1 ^ 2 + y.2 ^ 2 = 1) {inputs : List RoundInput} : EdgesReady gemZ gemSetup (gemDraws ys inputs) :=
  ⟨by show 0 ≤ 2; norm_num, gem_edgesOK, gem_draws (fun _ _ => by simp [gemDraws]) hy⟩

theorem gemF_ok : gemF.OK (1 / 4) ∧ SizingOK gemF ∧ gemF.corners.length ≤ gemF.surface.length ∧ gemF.sizing.length ≤ gemF.surface.length := by
  have hS := gem_surface
  have eC : gemF.corners = [] := recsOf_nil rfl
  exact ⟨⟨hS.spheres.nonneg, hS.spheres.lt, recsOf_good hS.spheres.s, recsOf_good hS.spheres.e, recsOf_good hS.spheres.c⟩, fun q hq => by simp [gemF, featuresOf] at hq, by rw [eC]; exact Nat.zero_le _, Nat.zero_le _⟩

/-- The sixteen seeds. -/
def GemSeeds (reg : Nat → Nat) (xs : List SeedRec) : Prop :=
  xs.length = 16 ∧ ∀ (q : Nat) (b : SeedRec), xs[q]? = some b → q < 16 ∧ b.x = mergedSeed (gemSide 18) (gemSide 8) q ∧ b.region = reg q ∧ b.size = 33

/-- No seeds are added at the edges. -/
theorem gem_edge_stage {ys : Nat → Bool → List (ℝ × ℝ)} (hy : ∀ i b, ∀ y ∈ ys i b, y.1 ^ 2 + y.2 ^ 2 = 1) {reg : Nat → Nat} :
    ∃ (xs : List SeedRec) (N : Nat), (∀ lf, N ≤ lf → ensureDelaunay (seedArrays (gemSide 18) (gemSide 8) reg) gemF (1 / 4) lf (fun _ _ => [ptN 0 0 1]) ys = some xs) ∧ GemSeeds reg xs := by
  obtain ⟨hF, -, hc, hz⟩ := gemF_ok
  have hlen := seedArrays_len (up := gemSide 18) (lo := gemSide 8) reg
  have hlen16 : (seedArrays (gemSide 18) (gemSide 8) reg).length = 16 := hlen
  have hsize : ∀ q, q < 16 → mergedSeed (gemSide 18) (gemSide 8) q 3 = 33 := fun q _ => by
    unfold mergedSeed
    split <;> rfl
  have hall : ∀ (q : Nat) (a : SeedRec), (seedArrays (gemSide 18) (gemSide 8) reg)[q]? = some a → q < 16 ∧ a.x = mergedSeed (gemSide 18) (gemSide 8) q ∧ a.region = reg q ∧ a.size = 33 := fun q a ha => by
    obtain ⟨hq, rfl⟩ := seedArrays_pos reg ha
    exact ⟨hq, rfl, rfl, hsize q hq⟩
  have hall' : ∀ a ∈ seedArrays (gemSide 18) (gemSide 8) reg, a.size = 33 := fun a ha => by
    obtain ⟨q, hq⟩ := List.getElem?_of_mem ha
    exact (hall q a hq).2.2.2
  have hne : seedArrays (gemSide 18) (gemSide 8) reg ≠ [] := fun h => by rw [h] at hlen16; simp at hlen16
  obtain ⟨xs, os, N1, a1, a2, a3, a4, a5⟩ := C87_edge_seeds_partial (seedArrays (gemSide 18) (gemSide 8) reg) gemF (1 / 4) hF hc hz hne (fun a ha => by rw [hall' a ha]; norm_num)
    gem_edgesOK (fun _ _ => [ptN 0 0 1]) ys (gem_draws (fun _ _ => by simp) hy)
  have hx : ∀ (q : Nat) (b : SeedRec), xs[q]? = some b → q < 16 ∧ b.x = mergedSeed (gemSide 18) (gemSide 8) q ∧ b.region = reg q ∧ b.size = 33 := fun q b hb => by
    have hq : q < 16 := by rw [← hlen16, ← a2]; exact (List.getElem?_eq_some_iff.1 hb).1
    obtain ⟨a, ha⟩ : ∃ a, (seedArrays (gemSide 18) (gemSide 8) reg)[q]? = some a := ⟨_, seedArrays_get reg hq⟩
    obtain ⟨-, e1, e2, e3⟩ := hall q a ha
    obtain ⟨x1, x2, x3, c, hc', hcb⟩ := a3 q a b ha hb
    refine ⟨hq, x1.trans e1, x2.trans e2, le_antisymm (x3.trans e3.le) ?_⟩
    have := hall' c hc'
    have := euclid_nonneg 3 a.x c.x
    linarith
  have hos : (os.flatMap fun p => p.1.toList ++ p.2.toList) = [] := by
    rw [List.flatMap_eq_nil_iff]
    intro p hp
    obtain ⟨i, hi⟩ := List.getElem?_of_mem hp
    have hi4 : i < 4 := by
      have := (List.getElem?_eq_some_iff.1 hi).1
      rw [a4] at this
      exact this
    obtain ⟨n, m, hn, hc1, hm, hc2⟩ := a5 i _ p (gemF_get hi4) hi
    obtain ⟨j, hj, hij, rfl⟩ := gem_next (gemF_get hi4) hn
    obtain ⟨k, hk, hik, rfl⟩ := gem_next (gemF_get hi4) hm
    rw [gem_circle (by rw [a2, hlen16]) (fun q b hb => (hx q b hb).2.1) hi4 hj hij hc1, gem_circle (by rw [a2, hlen16]) (fun q b hb => (hx q b hb).2.1) hi4 hk hik hc2]
    rfl
  rw [hos, List.append_nil] at a1
  exact ⟨xs, N1, a1, by rw [a2, hlen16], hx⟩

/-- What the interior stage leaves: the same sixteen seeds. -/
theorem gem_interior {ys : Nat → Bool → List (ℝ × ℝ)} (hy : ∀ i b, ∀ y ∈ ys i b, y.1 ^ 2 + y.2 ^ 2 = 1) {reg : Nat → Nat} (hreg : ∀ q, q < 16 → (reg q = 0 ↔ q < 8)) :
    ∃ (inputs : List RoundInput) (out : RunResult) (N : Nat), (∀ inp ∈ inputs, inp.OK) ∧
    (∀ lf, N ≤ lf → interiorRun id gemF (1 / 4) 100 lf 1 none false (gemDraws ys inputs) (seedArrays (gemSide 18) (gemSide 8) reg) = some (some out)) ∧
    out.seeds.length = 16 ∧ ∀ (q : Nat) (b : SeedRec), out.seeds[q]? = some b → b.x = mergedSeed (gemSide 18) (gemSide 8) q ∧ b.region = reg q ∧ b.size = 33 := by
  obtain ⟨hF, hsz, hc, hz⟩ := gemF_ok
  obtain ⟨xs, N1, a1, a2, hx⟩ := gem_edge_stage hy (reg := reg)
  have hx' : ∀ a ∈ xs, a.size = 33 := fun a ha => by
    obtain ⟨q, hq⟩ := List.getElem?_of_mem ha
    exact (hx q a hq).2.2.2
  have h4 : ∃ a ∈ xs, a.region ≠ 0 := by
    have hl : 8 < xs.length := by rw [a2]; norm_num
    refine ⟨xs[8], List.getElem_mem hl, ?_⟩
    rw [(hx 8 _ (List.getElem?_eq_getElem hl)).2.2.1, Ne, hreg 8 (by norm_num)]
    norm_num
  obtain ⟨inputs, out, N2, b1, b2, b3, b4⟩ := generateInterior_blocked (ρ := id) (rmax := 100) (seeds := xs) monotone_id (fun _ => rfl) hF hsz (by norm_num) hc hz 1 (fun a ha => by rw [hx' a ha]; norm_num) h4 (by
    intro a ha r hr1 ⟨c, hc1, hc2⟩
    rw [hx' a ha] at hr1
    rw [hx' c hc1] at hc2
    have h33 : r = 33 := le_antisymm hr1 (by have := euclid_nonneg 3 a.x c.x; linarith)
    obtain ⟨q, hq⟩ := List.getElem?_of_mem ha
    obtain ⟨hq16, ex, -⟩ := hx q a hq
    obtain ⟨s, hs, hd⟩ : ∃ s, s < 2 ∧ euclid 3 (mergedSeed (gemSide 18) (gemSide 8) q) (gemSphere s) = 33 := by
      have key : ∀ a ∈ gemPairs, a.s1 < 2 := by decide +kernel
      obtain ⟨a', ha'⟩ : ∃ a', (mergeSeedAttrs (gemSide 18) (gemSide 8))[q]? = some a' := ⟨_, List.getElem?_eq_getElem (by exact hq16)⟩
      have hse := (gem_stored.exact gem_noGrazing ha').seed
      have h1 : a'.s1 < 2 := key a' (List.mem_of_getElem? ha')
      have := hse.on a'.s1 (.inl rfl)
      rw [gemZ_at (by omega)] at this
      exact ⟨a'.s1, h1, this⟩
    refine blocked_of (q := ⟨gemSphere s, 33, 0⟩) (.inl (recsOf_mem.2 ⟨s, hs, rfl⟩)) ?_
    simp only
    rw [ex, hd, h33]
    norm_num)
  refine ⟨inputs, ⟨out, [], []⟩, max N1 N2, b1, fun lf hf => ?_, by rw [b3, a2], fun q b hb => ?_⟩
  · unfold interiorRun
    simp only [gemDraws, a1 lf (by omega), imposeStage, b2 lf (by omega), finishSeeds, Option.map_some]
    rfl
  · have hq : q < xs.length := by rw [← b3]; exact (List.getElem?_eq_some_iff.1 hb).1
    obtain ⟨y1, y2, y3, c, hc', hcb⟩ := b4 q _ b (List.getElem?_eq_getElem hq) hb
    obtain ⟨-, e1, e2, e3⟩ := hx q _ (List.getElem?_eq_getElem hq)
    exact ⟨y1.trans e1, y2.trans e2, le_antisymm (y3.trans e3.le) (by rw [hx' c hc'] at hcb; exact hcb)⟩

/-! ## The mesh -/

theorem gem_corner {a b c : ℝ} (ha : 0 ≤ a) (hb : 0 ≤ b) (hc : 0 ≤ c) (h : a + b + c ≤ 39) : (a - 8) ^ 2 + (b - 8) ^ 2 + (c - 8) ^ 2 ≤ 1089 := by
  nlinarith [mul_nonneg ha hb, mul_nonneg ha hc, mul_nonneg hb hc, mul_nonneg (add_nonneg (add_nonneg ha hb) hc) (sub_nonneg.2 h)]

theorem gem_cell {xs : List SeedRec} (hl : xs.length = 16) (hp : ∀ q d, q < 16 → d < 3 → seedPos xs q d = gemPosi q d) {i : Nat} (h8 : 8 ≤ i) (hi : i < 16) {z : Nat → ℝ} (hz : InVoronoi xs i z) :
    euclid 3 z (seedPos xs i) < 66 := by
  have hd : ∀ q, q < 16 → distSq3 z (seedPos xs q) = (z 0 - gemPosi q 0) ^ 2 + (z 1 - gemPosi q 1) ^ 2 + (z 2 - gemPosi q 2) ^ 2 := fun q hq => by
    unfold distSq3
    rw [hp q 0 hq (by norm_num), hp q 1 hq (by norm_num), hp q 2 hq (by norm_num)]
    ring
  have near : ∀ q, q < 16 → (z 0 - gemPosi i 0) ^ 2 + (z 1 - gemPosi i 1) ^ 2 + (z 2 - gemPosi i 2) ^ 2 ≤ (z 0 - gemPosi q 0) ^ 2 + (z 1 - gemPosi q 1) ^ 2 + (z 2 - gemPosi q 2) ^ 2 := fun q hq => by
    have := hz q (by rw [hl]; exact hq)
    rw [dist_mono, hd i hi, hd q hq] at this
    exact this
  have far : distSq3 z (seedPos xs i) ≤ 1089 := by
    rw [hd i hi]
    have key : ∀ v : Fin 8, (gemSign v 0 = 1 ∨ gemSign v 0 = -1) ∧ (gemSign v 1 = 1 ∨ gemSign v 1 = -1) ∧ (gemSign v 2 = 1 ∨ gemSign v 2 = -1) ∧
        (∃ w : Fin 8, gemSign w 0 = -gemSign v 0 ∧ gemSign w 1 = gemSign v 1 ∧ gemSign w 2 = gemSign v 2) ∧ (∃ w : Fin 8, gemSign w 0 = gemSign v 0 ∧ gemSign w 1 = -gemSign v 1 ∧ gemSign w 2 = gemSign v 2) ∧
        ∃ w : Fin 8, gemSign w 0 = gemSign v 0 ∧ gemSign w 1 = gemSign v 1 ∧ gemSign w 2 = -gemSign v 2 := by decide +kernel
    obtain ⟨v, rfl⟩ : ∃ v, i = v + 8 := ⟨i - 8, by omega⟩
    obtain ⟨s0, s1, s2, ⟨w0, a0, a1, a2⟩, ⟨w1, b0, b1, b2⟩, w2, c0, c1, c2⟩ := key ⟨v, by omega⟩
    simp only at s0 s1 s2 a0 a1 a2 b0 b1 b2 c0 c1 c2
    have inner : ∀ w d : Nat, gemPosi (w + 8) d = 8 * gemSign w d := fun w d => by unfold gemPosi; rw [if_neg (by omega), Nat.add_sub_cancel]
    have n0 := near (w0 + 8) (by have := w0.2; omega)
    have n1 := near (w1 + 8) (by have := w1.2; omega)
    have n2 := near (w2 + 8) (by have := w2.2; omega)
    have m := near v (by omega)
    rw [show ∀ d, gemPosi v d = 18 * gemSign v d from fun d => by unfold gemPosi; rw [if_pos (by omega)]] at m
    rw [show ∀ d, gemPosi v d = 18 * gemSign v d from fun d => by unfold gemPosi; rw [if_pos (by omega)]] at m
    rw [show ∀ d, gemPosi v d = 18 * gemSign v d from fun d => by unfold gemPosi; rw [if_pos (by omega)]] at m
    simp only [inner, a0, a1, a2, b0, b1, b2, c0, c1, c2] at n0 n1 n2 m ⊢
    clear near hd hz key inner a0 a1 a2 b0 b1 b2 c0 c1 c2
    push_cast at n0 n1 n2 m ⊢
    obtain ⟨σ0, f0⟩ : ∃ σ : ℝ, (gemSign v 0 : ℝ) = σ := ⟨_, rfl⟩
    obtain ⟨σ1, f1⟩ : ∃ σ : ℝ, (gemSign v 1 : ℝ) = σ := ⟨_, rfl⟩
    obtain ⟨σ2, f2⟩ : ∃ σ : ℝ, (gemSign v 2 : ℝ) = σ := ⟨_, rfl⟩
    have q0 : σ0 ^ 2 = 1 := by rw [← f0]; rcases s0 with h | h <;> rw [h] <;> norm_num
    have q1 : σ1 ^ 2 = 1 := by rw [← f1]; rcases s1 with h | h <;> rw [h] <;> norm_num
    have q2 : σ2 ^ 2 = 1 := by rw [← f2]; rcases s2 with h | h <;> rw [h] <;> norm_num
    rw [f0, f1, f2] at n0 n1 n2 m ⊢
    have := gem_corner (a := σ0 * z 0) (b := σ1 * z 1) (c := σ2 * z 2) (by linarith) (by linarith) (by linarith) (by linarith)
    have e : (z 0 - 8 * σ0) ^ 2 + (z 1 - 8 * σ1) ^ 2 + (z 2 - 8 * σ2) ^ 2 = (σ0 * z 0 - 8) ^ 2 + (σ1 * z 1 - 8) ^ 2 + (σ2 * z 2 - 8) ^ 2 := by
      linear_combination (64 - z 0 ^ 2) * q0 + (64 - z 1 ^ 2) * q1 + (64 - z 2 ^ 2) * q2
    rw [e]
    exact this
  rw [← sqrt_distSq3]
  refine lt_of_le_of_lt (Real.sqrt_le_sqrt far) ?_
  rw [Real.sqrt_lt' (by norm_num)]
  norm_num

theorem gem_meshable {xs : List SeedRec} (hl : xs.length = 16) (h : ∀ (q : Nat) (b : SeedRec), xs[q]? = some b → b.x = mergedSeed (gemSide 18) (gemSide 8) q ∧ (b.region = 0 ↔ q < 8) ∧ b.size = 33) : MeshableSeeds xs := by
  have hp : ∀ q d, q < 16 → d < 3 → seedPos xs q d = gemPosi q d := fun q d hq hd => by
    have e : xs[q]? = some xs[q] := List.getElem?_eq_getElem (by omega)
    unfold seedPos
    rw [e]
    show (xs[q]).x d = _
    rw [(h q _ e).1, gem_merged hd]
  obtain ⟨g1, g2, g3⟩ := grid_conditions (xs := xs) (by
    rw [hl]
    intro i hi z hz
    refine ⟨fun k => gemPosi z k - gemPosi i k, fun k hk => ⟨by rw [hp z k hz hk, hp i k hi hk]; push_cast; ring, ?_⟩⟩
    have h : ∀ i z : Fin 16, ∀ k : Fin 3, |gemPosi z k - gemPosi i k| ≤ 100 := by decide +kernel
    exact h ⟨i, hi⟩ ⟨z, hz⟩ ⟨k, hk⟩) (by
    rw [hl]
    intro i j hi hj h
    have key : ∀ i j : Fin 16, (∀ d : Fin 3, gemPosi i d = gemPosi j d) → i = j := by decide +kernel
    have := key ⟨i, hi⟩ ⟨j, hj⟩ fun d => by
      have := h d d.2
      rw [hp i d hi d.2, hp j d hj d.2] at this
      exact_mod_cast this
    exact congrArg Fin.val this) fun i s hi hr => by
      have hlt : i < 16 := by rw [← hl]; exact (List.getElem?_eq_some_iff.1 hi).1
      obtain ⟨-, h0, h33⟩ := h i s hi
      have h8 : 8 ≤ i := not_lt.1 fun hh => hr (h0.2 hh)
      rw [h33]
      refine ⟨⟨66, by norm_num⟩, by norm_num, fun z hz => ?_⟩
      have := gem_cell hl hp h8 hlt hz
      linarith
  exact ⟨g1, g2, few_nearest (by rw [hl]; norm_num), g3⟩

theorem gem_colours {ys : Nat → Bool → List (ℝ × ℝ)} (hy : ∀ i b, ∀ y ∈ ys i b, y.1 ^ 2 + y.2 ^ 2 = 1) :
    ∃ reg nr, colorSurface gemSetup.rb gemZ (gemSide 18) (gemSide 8) = some (reg, nr) ∧ ∀ q, q < 16 → (reg q = 0 ↔ q < 8) := by
  obtain ⟨reg, nr, nb, j0, α, -, ec, hfr, hs, hz, -⟩ := C110_mesh_run gem_surface (gem_setup (ys := ys) (inputs := []) (by simp)) (gem_ready hy)
  exact ⟨reg, nr, ec, fun q hq => gem_regions hfr hs hz hq⟩

/-- The rest of the run, when the interior stage leaves the sixteen seeds. -/
theorem gem_run_of {ys : Nat → Bool → List (ℝ × ℝ)} (hy : ∀ i b, ∀ y ∈ ys i b, y.1 ^ 2 + y.2 ^ 2 = 1) {inputs : List RoundInput} (hin : ∀ inp ∈ inputs, inp.OK)
    {reg : Nat → Nat} {nr : Nat} (ec : colorSurface gemSetup.rb gemZ (gemSide 18) (gemSide 8) = some (reg, nr)) (hr : ∀ q, q < 16 → (reg q = 0 ↔ q < 8)) {out : RunResult} {N1 : Nat}
    (ho : ∀ lf, N1 ≤ lf → interiorRun id gemF (1 / 4) 100 lf 1 none false (gemDraws ys inputs) (seedArrays (gemSide 18) (gemSide 8) reg) = some (some out))
    (hl : out.seeds.length = 16) (hb : ∀ (q : Nat) (b : SeedRec), out.seeds[q]? = some b → b.x = mergedSeed (gemSide 18) (gemSide 8) q ∧ b.region = reg q ∧ b.size = 33) :
    ∃ (nb : Nat → Nat) (α : Nat → Nat → ℝ) (N F : Nat), ∀ lf f' f, N ≤ lf → F ≤ f' → F ≤ f →
    ∃ R file, meshModel gemSetup gemZ (gemSide 18) (gemSide 8) (gemDraws ys inputs) lf f' f = some (some (out, some R)) ∧ EdgedSeedsOK gemZ (gemSide 18) (gemSide 8) nb α out.seeds ∧ out.seeds.length = 16 ∧
      (∀ (q : Nat) (b : SeedRec), out.seeds[q]? = some b → (b.region = 0 ↔ q < 8)) ∧ IsDiagramMesh out.seeds R.mesh ∧ R.cells = 8 ∧ R.vcg = some file ∧ VcgCells (FlatFace out.seeds) out.seeds R.seeds file := by
  obtain ⟨reg', nr', nb', j0', α', N, ec', -, -, -, hN⟩ := C110_mesh_run gem_surface (gem_setup (ys := ys) hin) (gem_ready hy)
  rw [ec] at ec'
  obtain ⟨rfl, rfl⟩ := Prod.mk.inj (Option.some.inj ec')
  have hlt : ∀ (q : Nat) (b : SeedRec), out.seeds[q]? = some b → q < 16 := fun q b h => by rw [← hl]; exact (List.getElem?_eq_some_iff.1 h).1
  have hreg : ∀ (q : Nat) (b : SeedRec), out.seeds[q]? = some b → (b.region = 0 ↔ q < 8) := fun q b h => by rw [(hb q b h).2.1]; exact hr q (hlt q b h)
  obtain ⟨-, hm⟩ := (hN (max N N1) (le_max_left _ _)).2.2 out (ho _ (le_max_right _ _))
  obtain ⟨F, hF⟩ := hm (gem_meshable hl fun q b h => ⟨(hb q b h).1, hreg q b h, (hb q b h).2.2⟩)
  refine ⟨nb', α', max N N1, F, fun lf f' f h1 h2 h3 => ?_⟩
  obtain ⟨hok, -⟩ := (hN lf (le_trans (le_max_left _ _) h1)).2.2 out (ho _ (le_trans (le_max_right _ _) h1))
  obtain ⟨mesh, -, -, hR⟩ := hF f' f h2 h3
  obtain ⟨R, e, hfiles⟩ := hR fun h => by simp [gemSetup] at h
  have hlf : ∀ lf, max N N1 ≤ lf → interiorRun gemSetup.ρ (featuresOf gemZ gemSetup.size) gemSetup.L gemSetup.rmax lf gemSetup.threads gemSetup.imposed gemSetup.generate (gemDraws ys inputs) (seedArrays (gemSide 18) (gemSide 8) reg) = some (some out) :=
    fun lf h => ho lf (le_trans (le_max_right _ _) h)
  have e' : meshModel gemSetup gemZ (gemSide 18) (gemSide 8) (gemDraws ys inputs) lf f' f = meshModel gemSetup gemZ (gemSide 18) (gemSide 8) (gemDraws ys inputs) (max N N1) f' f := by
    unfold meshModel
    simp only [ec, hlf lf h1, hlf _ le_rfl]
  unfold FilesOK at hfiles
  rw [if_pos (show (gemSetup.vcg || gemSetup.exo) = true from rfl)] at hfiles
  obtain ⟨r, rfl, hd, hx⟩ := hfiles
  have hv := hx.vcg
  rw [if_pos (show gemSetup.vcg = true from rfl)] at hv
  obtain ⟨file, ef, hfile⟩ := hv
  refine ⟨r, file, e'.trans e, hok, hl, hreg, hd, ?_, ef, hfile⟩
  rw [hx.cells, hl]
  have : ((Finset.range 16).filter fun i => InnerSeed out.seeds i) = (Finset.range 16).filter fun i => 8 ≤ i := by
    refine Finset.filter_congr fun i hi => ?_
    have hi' : i < out.seeds.length := by rw [hl]; exact Finset.mem_range.1 hi
    have e : out.seeds[i]? = some out.seeds[i] := List.getElem?_eq_getElem hi'
    have := hreg i _ e
    constructor
    · rintro ⟨s, hs, h0⟩
      rw [e] at hs
      obtain rfl := Option.some.inj hs
      by_contra h
      exact h0 (this.2 (not_le.1 h))
    · intro h
      exact ⟨_, e, fun h0 => by have := this.1 h0; omega⟩
  rw [this]
  decide

/-- Not vacuous: the whole second part of the run for the octahedron with its sharp edge, for all candidates drawn on the circles of the edge spheres.  With some random numbers it ends with the sixteen seeds of the surface, eight of them
outside, and a VCG file of the eight cells inside. -/
theorem gem_run (ys : Nat → Bool → List (ℝ × ℝ)) (hy : ∀ i b, ∀ y ∈ ys i b, y.1 ^ 2 + y.2 ^ 2 = 1) :
    ∃ (inputs : List RoundInput) (out : RunResult) (nb : Nat → Nat) (α : Nat → Nat → ℝ) (N F : Nat), ∀ lf f' f, N ≤ lf → F ≤ f' → F ≤ f →
    ∃ R file, meshModel gemSetup gemZ (gemSide 18) (gemSide 8) (gemDraws ys inputs) lf f' f = some (some (out, some R)) ∧ EdgedSeedsOK gemZ (gemSide 18) (gemSide 8) nb α out.seeds ∧ out.seeds.length = 16 ∧
      (∀ (q : Nat) (b : SeedRec), out.seeds[q]? = some b → (b.region = 0 ↔ q < 8)) ∧ IsDiagramMesh out.seeds R.mesh ∧ R.cells = 8 ∧ R.vcg = some file ∧ VcgCells (FlatFace out.seeds) out.seeds R.seeds file := by
  obtain ⟨reg, nr, ec, hr⟩ := gem_colours hy
  obtain ⟨inputs, out, N, hin, ho, hl, hb⟩ := gem_interior hy hr
  exact ⟨inputs, out, gem_run_of hy hin ec hr ho hl hb⟩

end VoroCrust
