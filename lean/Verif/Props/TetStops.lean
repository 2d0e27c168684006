import Verif.Props.RunStops
import Verif.Props.RunCase

/-! The tetrahedron of C109 is fenced (C111). -/

namespace VoroCrust

def tetS (p : Nat → ℝ) (i : Nat) : ℝ := tetV i 0 * p 0 + tetV i 1 * p 1 + tetV i 2 * p 2

/-- What the spheres leave: the tetrahedron of the inner seeds. -/
def tetCore : Set (Nat → ℝ) := {x | ∀ i, i < 4 → tetS x i ≤ 3}

theorem tet_max {a b c d : ℝ} (ha : 3 < a) (hs : a + b + c + d = 0) (hb : b ≤ a) (hc : c ≤ a) (hd : d ≤ a) (h : 312 * a ≤ a ^ 2 + b ^ 2 + c ^ 2 + d ^ 2 + 828) (hb4 : -40 < b) (hc4 : -40 < c) (hd4 : -40 < d) : False := by
  have q : ∀ x, x ≤ a → -3 * a ≤ x → x ^ 2 ≤ -2 * a * x + 3 * a ^ 2 := fun x h1 h2 => by nlinarith [mul_nonneg (sub_nonneg.2 h1) (sub_nonneg.2 h2)]
  have q' : ∀ x, x ≤ a → -40 < x → x ^ 2 ≤ (a - 40) * x + 40 * a := fun x h1 h2 => by nlinarith [mul_nonneg (sub_nonneg.2 h1) (sub_nonneg.2 h2.le)]
  have hd' : d = -a - b - c := by linarith
  have s1 : a ^ 2 + b ^ 2 + c ^ 2 + d ^ 2 ≤ 12 * a ^ 2 := by
    have := q b hb (by linarith)
    have := q c hc (by linarith)
    have := q d hd (by linarith)
    subst hd'
    nlinarith
  have s2 : a ^ 2 + b ^ 2 + c ^ 2 + d ^ 2 ≤ 160 * a := by
    have := q' b hb hb4
    have := q' c hc hc4
    have := q' d hd hd4
    subst hd'
    nlinarith
  have : 23 ≤ a := by nlinarith
  linarith

theorem tet_min {s : Nat → ℝ} (hs : s 0 + s 1 + s 2 + s 3 = 0) (hout : ∃ i, i < 4 ∧ 3 < s i) (h : ∀ i, i < 4 → 312 * s i ≤ s 0 ^ 2 + s 1 ^ 2 + s 2 ^ 2 + s 3 ^ 2 + 828) :
    ∃ k, k < 4 ∧ s k ≤ -40 ∧ ∀ i, i < 4 → s k ≤ s i := by
  obtain ⟨m, hm, hmax⟩ : ∃ m, m < 4 ∧ ∀ i, i < 4 → s i ≤ s m := by
    obtain ⟨m, hm, h⟩ := Finset.exists_max_image (Finset.range 4) s ⟨0, by simp⟩
    exact ⟨m, by simpa using hm, fun i hi => h i (by simpa using hi)⟩
  obtain ⟨k, hk, hmin⟩ : ∃ k, k < 4 ∧ ∀ i, i < 4 → s k ≤ s i := by
    obtain ⟨m, hm, h⟩ := Finset.exists_min_image (Finset.range 4) s ⟨0, by simp⟩
    exact ⟨m, by simpa using hm, fun i hi => h i (by simpa using hi)⟩
  refine ⟨k, hk, ?_, hmin⟩
  by_contra hlt
  push Not at hlt
  obtain ⟨i, hi, hi3⟩ := hout
  have h3 : 3 < s m := lt_of_lt_of_le hi3 (hmax i hi)
  have lo : ∀ i, i < 4 → -40 < s i := fun i hi => lt_of_lt_of_le hlt (hmin i hi)
  have hm' := h m hm
  have l0 := lo 0 (by norm_num)
  have l1 := lo 1 (by norm_num)
  have l2 := lo 2 (by norm_num)
  have l3 := lo 3 (by norm_num)
  have u0 := hmax 0 (by norm_num)
  have u1 := hmax 1 (by norm_num)
  have u2 := hmax 2 (by norm_num)
  have u3 := hmax 3 (by norm_num)
  clear h hmax hmin lo
  interval_cases m
  · exact tet_max h3 hs u1 u2 u3 hm' l1 l2 l3
  · exact tet_max (b := s 0) (c := s 2) (d := s 3) h3 (by linarith) u0 u2 u3 (by linarith) l0 l2 l3
  · exact tet_max (b := s 0) (c := s 1) (d := s 3) h3 (by linarith) u0 u1 u3 (by linarith) l0 l1 l3
  · exact tet_max (b := s 0) (c := s 1) (d := s 2) h3 (by linarith) u0 u1 u2 (by linarith) l0 l1 l2

theorem tetS_sum (p : Nat → ℝ) : tetS p 0 + tetS p 1 + tetS p 2 + tetS p 3 = 0 := by norm_num [tetS, tetV]; ring

theorem tetS_dot (p x : Nat → ℝ) : p 0 * x 0 + p 1 * x 1 + p 2 * x 2 = (tetS p 0 * tetS x 0 + tetS p 1 * tetS x 1 + tetS p 2 * tetS x 2 + tetS p 3 * tetS x 3) / 4 := by norm_num [tetS, tetV]; ring

theorem tetV_sq {v : Nat} (hv : v < 4) : tetV v 0 ^ 2 + tetV v 1 ^ 2 + tetV v 2 ^ 2 = 3 := by interval_cases v <;> norm_num [tetV]

/-- The features of the tetrahedron. -/
noncomputable def tetF : Features := featuresOf tetZ none

theorem tet_clear {p : Nat → ℝ} (h : ClearOf tetF p) {i : Nat} (hi : i < 4) : 312 * tetS p i ≤ tetS p 0 ^ 2 + tetS p 1 ^ 2 + tetS p 2 ^ 2 + tetS p 3 ^ 2 + 828 := by
  have h1 := h ⟨tetSphere i, 66, 0⟩ (.inl (recsOf_mem.2 ⟨i, hi, rfl⟩))
  simp only at h1
  have h2 : (66 : ℝ) ^ 2 ≤ euclid 3 p (tetSphere i) ^ 2 := by nlinarith
  rw [show euclid 3 p (tetSphere i) ^ 2 = distSq3 p (tetSphere i) by rw [distSq3_sq]] at h2
  unfold distSq3 tetSphere at h2
  simp only [show (0 : Nat) < 3 from by norm_num, show (1 : Nat) < 3 from by norm_num, show (2 : Nat) < 3 from by norm_num, if_true] at h2
  have h3 := tetS_dot p p
  have h4 := tetV_sq hi
  have h5 : tetS p i = tetV i 0 * p 0 + tetV i 1 * p 1 + tetV i 2 * p 2 := rfl
  nlinarith

theorem tet_outside {s t : Nat → ℝ} (hs : s 0 + s 1 + s 2 + s 3 = 0) (ht : t 0 + t 1 + t 2 + t 3 = 0) (h3 : ∀ i, i < 4 → t i ≤ 3) {μ : ℝ} (hμ : ∀ i, i < 4 → -μ ≤ s i) :
    (s 0 * t 0 + s 1 * t 1 + s 2 * t 2 + s 3 * t 3) / 4 ≤ 3 * μ := by
  have q : ∀ i, i < 4 → 0 ≤ (s i + μ) * (3 - t i) := fun i hi => mul_nonneg (by linarith [hμ i hi]) (by linarith [h3 i hi])
  have := q 0 (by norm_num)
  have := q 1 (by norm_num)
  have := q 2 (by norm_num)
  have := q 3 (by norm_num)
  have : μ * (t 0 + t 1 + t 2 + t 3) = 0 := by rw [ht, mul_zero]
  linarith

theorem tet_fenced {reg : Nat → Nat} (hreg : ∀ q, q < 8 → (reg q = 0 ↔ q < 4)) {xs : List SeedRec} (hl : xs.length = 8)
    (hx : ∀ (q : Nat) (b : SeedRec), xs[q]? = some b → q < 8 ∧ b.x = mergedSeed (tetSide 23) (tetSide 3) q ∧ b.region = reg q) : Fenced tetF (1 / 4) xs tetCore := by
  have pos : ∀ q, q < 8 → ∀ d, d < 3 → mergedSeed (tetSide 23) (tetSide 3) q d = if q < 4 then -23 * tetV (3 - q) d else -3 * tetV (7 - q) d := fun q hq d hd => by
    unfold mergedSeed
    by_cases h4 : q < 4
    · rw [if_pos (show q < (tetSide 23).tree.num from h4), if_pos h4]
      show tetSeed 23 (3 - q) d = _
      unfold tetSeed
      rw [if_pos hd]
    · rw [if_neg (show ¬ q < (tetSide 23).tree.num from h4), if_neg h4]
      show tetSeed 3 (3 - (q - 4)) d = _
      unfold tetSeed
      rw [if_pos hd, show 3 - (q - 4) = 7 - q by omega]
  refine ⟨⟨3, fun x hx d hd => ?_⟩, fun a ha h0 i hi => ?_, fun p hp hclear => ?_⟩
  · have h0 := hx 0 (by norm_num)
    have h1 := hx 1 (by norm_num)
    have h2 := hx 2 (by norm_num)
    have h3 := hx 3 (by norm_num)
    norm_num [tetS, tetV] at h0 h1 h2 h3
    rw [abs_le]
    interval_cases d <;> constructor <;> linarith
  · obtain ⟨q, hq⟩ := List.getElem?_of_mem ha
    obtain ⟨hq8, ex, er⟩ := hx q a hq
    have h4 : ¬ q < 4 := fun h => h0 (by rw [er]; exact (hreg q hq8).2 h)
    unfold tetS
    rw [ex, pos q hq8 0 (by norm_num), pos q hq8 1 (by norm_num), pos q hq8 2 (by norm_num), if_neg h4, if_neg h4, if_neg h4]
    have : 4 ≤ q := by omega
    interval_cases q <;> interval_cases i <;> norm_num [tetV]
  · obtain ⟨k, hk, hk40, hmin⟩ := tet_min (s := tetS p) (tetS_sum p) (by
      by_contra hc
      push Not at hc
      exact hp hc) fun i hi => tet_clear hclear hi
    have hk' : 3 - k < xs.length := by omega
    obtain ⟨-, ex, er⟩ := hx (3 - k) xs[3 - k] (List.getElem?_eq_getElem hk')
    refine ⟨xs[3 - k], List.getElem_mem hk', by rw [er]; exact (hreg _ (by omega)).2 (by omega), fun x hxc => ?_⟩
    have e : ∀ d, d < 3 → xs[3 - k].x d = -23 * tetV k d := fun d hd => by
      rw [ex, pos _ (by omega) d hd, if_pos (by omega), show 3 - (3 - k) = k by omega]
    rw [show min (1 : ℝ) ((1 + 2 * (1 / 4)) / (2 * (1 - 1 / 4))) = 1 by norm_num, one_mul]
    have key := tet_outside (tetS_sum p) (tetS_sum x) hxc (μ := -tetS p k) fun i hi => by rw [neg_neg]; exact hmin i hi
    have h1 : euclid 3 p xs[3 - k].x ^ 2 < euclid 3 p x ^ 2 := by
      rw [show euclid 3 p xs[3 - k].x ^ 2 = distSq3 p xs[3 - k].x by rw [distSq3_sq], show euclid 3 p x ^ 2 = distSq3 p x by rw [distSq3_sq]]
      unfold distSq3
      rw [e 0 (by norm_num), e 1 (by norm_num), e 2 (by norm_num)]
      have h2 := tetS_dot p x
      have h3 := tetV_sq hk
      have h4 : tetS p k = tetV k 0 * p 0 + tetV k 1 * p 1 + tetV k 2 * p 2 := rfl
      nlinarith [sq_nonneg (x 0), sq_nonneg (x 1), sq_nonneg (x 2)]
    exact lt_of_pow_lt_pow_left₀ 2 (euclid_nonneg _ _ _) h1

/-- Not vacuous: the interior stage for the tetrahedron, for all random numbers, threads, and with or without monitoring points. -/
theorem tet_interior_ends {reg : Nat → Nat} (hr : SidesOK tetZ (tetSide 23) (tetSide 3) reg) : ∃ K, ∀ (threads : Nat) (generate : Bool) (X : RunDraws), (∀ inp ∈ X.inputs, inp.OK) → (∀ i, 0 ≤ X.us i ∧ X.us i ≤ 1) →
    K ≤ X.inputs.length → ∃ N, ∀ lf, N ≤ lf → ∃ out, interiorRun id tetF (1 / 4) 100 lf threads none generate X (seedArrays (tetSide 23) (tetSide 3) reg) = some (some out) ∧ ∀ b ∈ out.seeds, b.region ≠ 0 → b.x ∈ tetCore := by
  have hS := tet_smooth
  have hF : tetF.OK (1 / 4) := ⟨hS.spheres.nonneg, hS.spheres.lt, recsOf_good hS.spheres.s, recsOf_good hS.spheres.e, recsOf_good hS.spheres.c⟩
  have eC : tetF.corners = [] := recsOf_nil rfl
  have hlen : (seedArrays (tetSide 23) (tetSide 3) reg).length = 8 := seedArrays_len (up := tetSide 23) (lo := tetSide 3) reg
  have hall : ∀ (q : Nat) (a : SeedRec), (seedArrays (tetSide 23) (tetSide 3) reg)[q]? = some a → q < 8 ∧ a.x = mergedSeed (tetSide 23) (tetSide 3) q ∧ a.region = reg q ∧ a.size = 66 := fun q a ha => by
    obtain ⟨hq, rfl⟩ := seedArrays_pos reg ha
    refine ⟨hq, rfl, rfl, ?_⟩
    show mergedSeed (tetSide 23) (tetSide 3) q 3 = 66
    unfold mergedSeed
    split <;> rfl
  have h4 : 4 < (seedArrays (tetSide 23) (tetSide 3) reg).length := by rw [hlen]; norm_num
  obtain ⟨K, hK⟩ := C111_smooth_ends hF (fun q hq => by simp [tetF, featuresOf] at hq) (by rw [eC]; exact Nat.zero_le _) (Nat.zero_le _) (recsOf_nil rfl) (r := 66) (rmax := 100) (by norm_num) (by norm_num)
    (fun q hq => by simp [tetF, featuresOf] at hq) (seedArrays (tetSide 23) (tetSide 3) reg) (fun a ha => by
      obtain ⟨q, hq⟩ := List.getElem?_of_mem ha
      exact (hall q a hq).2.2.2.ge) ⟨_, List.getElem_mem h4, by
      rw [(hall 4 _ (List.getElem?_eq_getElem h4)).2.2.1, Ne, tet_regions hr (by norm_num)]
      norm_num⟩ (tet_fenced (fun q hq => tet_regions hr hq) hlen fun q b hb => ⟨(hall q b hb).1, (hall q b hb).2.1, (hall q b hb).2.2.1⟩)
  refine ⟨K, fun threads generate X hi hu hlen => ?_⟩
  obtain ⟨N, hN⟩ := hK id monotone_id (fun _ => rfl) threads generate X hi hu hlen
  refine ⟨N, fun lf hf => ?_⟩
  obtain ⟨out, h1, h2⟩ := hN lf hf
  exact ⟨out, h1, fun b hb => (h2 b hb).1⟩

end VoroCrust
