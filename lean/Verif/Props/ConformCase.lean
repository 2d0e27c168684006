import Verif.Props.Conform

/-! A closed surface of four spheres for C104: the centres are the corners of a tetrahedron. -/

namespace VoroCrust

/-- Four alternate corners of a cube. -/
def tetV : Nat → Nat → ℝ
  | 0, _ => 1
  | 1, 0 => 1
  | 1, _ => -1
  | 2, 1 => 1
  | 2, _ => -1
  | _, 2 => 1
  | _, _ => -1

def tetSphere (s d : Nat) : ℝ := if d < 3 then 39 * tetV s d else 66

/-- The spheres have a tree. -/
theorem tet_links : ∃ ln, buildBalanced { pts := tetSphere, num := 4, dim := 3, lt := realLt } false = some ln := by
  obtain ⟨ln, -, e, -⟩ := buildBalanced_spec (P := { pts := tetSphere, num := 4, dim := 3, lt := realLt }) false (by norm_num) (by norm_num) realLt_asymm
  exact ⟨ln, e⟩

noncomputable def tetZ : SphereSet :=
  { S := { pts := tetSphere, num := 4, dim := 3, lt := realLt }, lnS := tet_links.choose
    E := { pts := fun _ _ => 0, num := 0, dim := 3, lt := fun _ _ => false }, lnE := ⟨id, id, none, 0⟩
    C := { pts := fun _ _ => 0, num := 0, dim := 3, lt := fun _ _ => false }, lnC := ⟨id, id, none, 0⟩ }

/-- The faces the spheres 0 and 1 were placed on. -/
def tetFace : Nat → Fin 3 → V3
  | 0 => ![![0, 0, 0], ![1, 0, -1], ![0, 1, 0]]
  | _ => ![![0, 0, 0], ![0, 0, 1], ![0, 1, 0]]

/-- The seed beyond the face opposite corner `v`: outside for `t = 23`, inside for `t = 3`. -/
def tetSeed (t : ℝ) (v d : Nat) : ℝ := if d < 3 then -t * tetV v d else 66

def tetAttrs : List SeedAttr := [⟨0, 0, 1, 2⟩, ⟨1, 0, 3, 1⟩, ⟨2, 0, 2, 3⟩, ⟨3, 1, 3, 2⟩]

def tetSide (t : ℝ) : SeedTree := ⟨{ pts := fun q => tetSeed t (3 - q), num := 4, cap := 4, links := ⟨id, id, none, 0⟩ }, tetAttrs⟩

theorem tetZ_at {s : Nat} (h : s < 4) : tetZ.at s = tetSphere s := by unfold SphereSet.at; rw [if_pos (by exact h)]; rfl

theorem tetZ_total : tetZ.total = 4 := rfl

theorem dist_eq {x y : Nat → ℝ} {r : ℝ} (hr : 0 ≤ r) (h : (x 0 - y 0) ^ 2 + (x 1 - y 1) ^ 2 + (x 2 - y 2) ^ 2 = r ^ 2) : euclid 3 x y = r := by
  rw [← euclid3_sq] at h
  exact (sq_eq_sq₀ (euclid_nonneg _ _ _) hr).1 h

theorem le_dist {x y : Nat → ℝ} {r : ℝ} (hr : 0 ≤ r) (h : r ^ 2 ≤ (x 0 - y 0) ^ 2 + (x 1 - y 1) ^ 2 + (x 2 - y 2) ^ 2) : r ≤ euclid 3 x y := by
  rw [← euclid3_sq] at h
  exact (pow_le_pow_iff_left₀ hr (euclid_nonneg _ _ _) two_ne_zero).1 h

theorem tet_on {t : ℝ} (ht : t = 23 ∨ t = 3) {v s : Nat} (hv : v < 4) (hs : s < 4) (hne : s ≠ v) : euclid 3 (tetSeed t v) (tetSphere s) = 66 := by
  refine dist_eq (by norm_num) ?_
  rcases ht with rfl | rfl <;> interval_cases v <;> interval_cases s <;> first | exact absurd rfl hne | norm_num [tetSeed, tetSphere, tetV]

theorem tet_off {t : ℝ} (ht : t = 23 ∨ t = 3) {v : Nat} (hv : v < 4) : 72 ≤ euclid 3 (tetSeed t v) (tetSphere v) := by
  refine le_dist (by norm_num) ?_
  rcases ht with rfl | rfl <;> interval_cases v <;> norm_num [tetSeed, tetSphere, tetV]

theorem tet_apart {t : ℝ} (ht : t = 23 ∨ t = 3) {v w : Nat} (hv : v < 4) (hw : w < 4) (hne : v ≠ w) : 1 ≤ euclid 3 (tetSeed t v) (tetSeed t w) := by
  refine le_dist (by norm_num) ?_
  rcases ht with rfl | rfl <;> interval_cases v <;> interval_cases w <;> first | exact absurd rfl hne | norm_num [tetSeed, tetV]

/-- A point on three of the spheres is one of the two seeds. -/
theorem tet_points {v : Nat} (hv : v < 4) {x : Nat → ℝ} (h : ∀ s, s < 4 → s ≠ v → euclid 3 x (tetSphere s) = 66) :
    ∃ t : ℝ, (t = 23 ∨ t = 3) ∧ ∀ d, d < 3 → x d = tetSeed t v d := by
  have e : ∀ s, s < 4 → s ≠ v → (x 0 - tetSphere s 0) ^ 2 + (x 1 - tetSphere s 1) ^ 2 + (x 2 - tetSphere s 2) ^ 2 = 4356 := fun s hs hne => by
    rw [← euclid3_sq, h s hs hne]; norm_num
  have fin : ∀ t : ℝ, (t + -23) * (t + -3) = 0 → t = 23 ∨ t = 3 := fun t ht => by
    rcases mul_eq_zero.1 ht with h | h
    · left; linarith
    · right; linarith
  interval_cases v
  · have e1 := e 1 (by norm_num) (by norm_num)
    have e2 := e 2 (by norm_num) (by norm_num)
    have e3 := e 3 (by norm_num) (by norm_num)
    norm_num [tetSphere, tetV] at e1 e2 e3
    have a1 : x 1 = x 0 := by linarith
    have a2 : x 2 = x 0 := by linarith
    rw [a1, a2] at e1
    refine ⟨-x 0, fin _ (by linear_combination (1 / 3) * e1), fun d hd => ?_⟩
    interval_cases d <;> norm_num [tetSeed, tetV, a1, a2]
  · have e1 := e 0 (by norm_num) (by norm_num)
    have e2 := e 2 (by norm_num) (by norm_num)
    have e3 := e 3 (by norm_num) (by norm_num)
    norm_num [tetSphere, tetV] at e1 e2 e3
    have a1 : x 1 = -x 0 := by linarith
    have a2 : x 2 = -x 0 := by linarith
    rw [a1, a2] at e1
    refine ⟨-x 0, fin _ (by linear_combination (1 / 3) * e1), fun d hd => ?_⟩
    interval_cases d <;> norm_num [tetSeed, tetV, a1, a2]
  · have e1 := e 0 (by norm_num) (by norm_num)
    have e2 := e 1 (by norm_num) (by norm_num)
    have e3 := e 3 (by norm_num) (by norm_num)
    norm_num [tetSphere, tetV] at e1 e2 e3
    have a1 : x 1 = -x 0 := by linarith
    have a2 : x 2 = x 0 := by linarith
    rw [a1, a2] at e1
    refine ⟨x 0, fin _ (by linear_combination (1 / 3) * e1), fun d hd => ?_⟩
    interval_cases d <;> norm_num [tetSeed, tetV, a1, a2]
  · have e1 := e 0 (by norm_num) (by norm_num)
    have e2 := e 1 (by norm_num) (by norm_num)
    have e3 := e 2 (by norm_num) (by norm_num)
    norm_num [tetSphere, tetV] at e1 e2 e3
    have a1 : x 1 = x 0 := by linarith
    have a2 : x 2 = -x 0 := by linarith
    rw [a1, a2] at e1
    refine ⟨x 0, fin _ (by linear_combination (1 / 3) * e1), fun d hd => ?_⟩
    interval_cases d <;> norm_num [tetSeed, tetV, a1, a2]

theorem tet_noGrazing : NoGrazing tetZ := by
  intro i j k s x hi hj hk hs hij hik hjk hsi hsj hsk hon _
  rw [tetZ_total] at hi hj hk hs
  obtain ⟨o1, o2, o3⟩ := hon
  rw [tetZ_at hi] at o1
  rw [tetZ_at hj] at o2
  rw [tetZ_at hk] at o3
  obtain ⟨t, ht, hx⟩ := tet_points hs (x := x) fun w hw hne => by
    have : w = i ∨ w = j ∨ w = k := by omega
    rcases this with rfl | rfl | rfl
    · exact o1
    · exact o2
    · exact o3
  rw [tetZ_at hs, euclid_congr3 hx (fun _ _ => rfl)]
  have := tet_off ht hs
  have e : tetSphere s 3 = 66 := rfl
  rw [e]; norm_num; linarith

/-- The four pairs. -/
theorem tet_pair {i j k v : Nat} (hv : v < 4) (hi : i < 4) (hj : j < 4) (hk : k < 4) (hij : i < j) (hik : i < k) (hjk : j ≠ k) (h1 : v ≠ i) (h2 : v ≠ j) (h3 : v ≠ k)
    (hf : i = 0 ∨ i = 1) (hor : 0 < dot3 (areaVec (centreTri (tetSphere i) (tetSphere j) (tetSphere k))) fun d => -tetV v d.val) (hside : 0 ≤ dot3 (areaVec (tetFace i)) fun d => -tetV v d.val)
    (hturn : k < j → 0 < dot3 (areaVec (tetFace i)) fun d => -tetV v d.val) : SeedPair tetZ tetFace (tetSeed 23 v) (tetSeed 3 v) i j k := by
  have hdiff : ∀ q : V3, dot3 q (toV3 (tetSeed 23 v - tetSeed 3 v)) = 20 * dot3 q fun d => -tetV v d.val := fun q => by
    simp only [dot3, toV3, Pi.sub_apply, tetSeed, Fin.isLt, if_true]; ring
  have hnor : ∃ c, 0 < c ∧ ∀ d, (triNormal (tetFace i)).1 d = c * areaVec (tetFace i) d := by
    have h2 : 1 ≤ Real.sqrt 2 := by rw [Real.one_le_sqrt]; norm_num
    rcases triNormal_spec (tetFace i) with ⟨-, -, -, h⟩ | ⟨-, h⟩
    · exact h
    · exfalso
      rcases hf with rfl | rfl
      · have l1 : len3 (fun d => tetFace 0 1 d - tetFace 0 0 d) = Real.sqrt 2 := by simp [len3, dot3, tetFace]; norm_num
        have l2 : len3 (fun d => tetFace 0 2 d - tetFace 0 0 d) = 1 := by simp [len3, dot3, tetFace]
        have l3 : len3 (areaVec (tetFace 0)) = Real.sqrt 2 := by simp [len3, dot3, tetFace, areaVec, cross3]; norm_num
        rw [l1, l2, l3] at h
        norm_num at h
        linarith
      · have l1 : len3 (fun d => tetFace 1 1 d - tetFace 1 0 d) = 1 := by simp [len3, dot3, tetFace]
        have l2 : len3 (fun d => tetFace 1 2 d - tetFace 1 0 d) = 1 := by simp [len3, dot3, tetFace]
        have l3 : len3 (areaVec (tetFace 1)) = 1 := by simp [len3, dot3, tetFace, areaVec, cross3]
        rw [l1, l2, l3] at h
        norm_num at h
  obtain ⟨c, hc, hn⟩ := hnor
  have hdn : dot3 (triNormal (tetFace i)).1 (toV3 (tetSeed 23 v - tetSeed 3 v)) = 20 * c * dot3 (areaVec (tetFace i)) fun d => -tetV v d.val := by
    rw [hdiff]; unfold dot3; rw [hn 0, hn 1, hn 2]; ring
  have on : ∀ t : ℝ, t = 23 ∨ t = 3 → OnThree tetZ i j k (tetSeed t v) := fun t ht => by
    refine ⟨?_, ?_, ?_⟩
    · rw [tetZ_at hi]; exact tet_on ht hv hi h1.symm
    · rw [tetZ_at hj]; exact tet_on ht hv hj h2.symm
    · rw [tetZ_at hk]; exact tet_on ht hv hk h3.symm
  have off : ∀ t : ℝ, t = 23 ∨ t = 3 → ∀ s, s < tetZ.total → s ≠ i → s ≠ j → s ≠ k → tetZ.at s 3 ≤ euclid 3 (tetSeed t v) (tetZ.at s) := fun t ht s hs n1 n2 n3 => by
    rw [tetZ_total] at hs
    obtain rfl : s = v := by omega
    have := tet_off ht hv
    have e : tetSphere s 3 = 66 := rfl
    rw [tetZ_at hs, e]; linarith
  have hmin : min (min (tetZ.at i 3) (tetZ.at j 3)) (tetZ.at k 3) = 66 := by
    rw [tetZ_at hi, tetZ_at hj, tetZ_at hk]
    have e : ∀ s, tetSphere s 3 = 66 := fun _ => rfl
    rw [e, e, e]; simp
  refine ⟨hi, ⟨hij, hik, hjk⟩, ⟨hj, hk⟩, on 23 (.inl rfl), on 3 (.inr rfl), fun h0 => ?_, ?_, ?_, ?_, fun h => ?_, ?_, fun s hs n1 n2 n3 => ⟨off 23 (.inl rfl) s hs n1 n2 n3, off 3 (.inr rfl) s hs n1 n2 n3⟩,
    by rw [hmin]; rfl, by rw [hmin]; rfl⟩
  · rw [tetZ_at hi, tetZ_at hj, tetZ_at hk] at h0
    rw [h0] at hor
    simp [dot3] at hor
  · rw [tetZ_at hi, tetZ_at hj, tetZ_at hk]
    refine ⟨fun d => -13 * tetV v d, fun d => -10 * tetV v d, ⟨1 / 3, 1 / 3, fun d hd => ?_⟩, ?_, ?_, fun d hd => ?_⟩
    · have : (tetV i d + tetV j d + tetV k d) = -tetV v d := by
        interval_cases v <;> interval_cases i <;> interval_cases j <;> interval_cases k <;> first | omega | (interval_cases d <;> norm_num [tetV])
      simp only [tetSphere, hd, if_true]; linear_combination (-13) * this
    · rw [ip3]
      interval_cases v <;> interval_cases i <;> interval_cases j <;> first | omega | norm_num [tetV, tetSphere]
    · rw [ip3]
      interval_cases v <;> interval_cases i <;> interval_cases k <;> first | omega | norm_num [tetV, tetSphere]
    · simp only [tetSeed, hd, if_true]; constructor <;> ring
  · refine le_trans (by norm_num : (2e-10 : ℝ) ≤ 20) (le_dist (by norm_num) ?_)
    interval_cases v <;> norm_num [tetSeed, tetV]
  · rw [hdn]; positivity
  · rw [hdn]; have := hturn h; positivity
  · rw [tetZ_at hi, tetZ_at hj, tetZ_at hk, hdiff]; linarith

theorem tetFace_area (i : Nat) (hi : i = 0 ∨ i = 1) : areaVec (tetFace i) 0 = (if i = 0 then 1 else -1) ∧ areaVec (tetFace i) 1 = 0 ∧ areaVec (tetFace i) 2 = if i = 0 then 1 else 0 := by
  rcases hi with rfl | rfl <;> refine ⟨?_, ?_, ?_⟩ <;> simp [areaVec, cross3, tetFace]

theorem tet_ok {q : Nat} {a : SeedAttr} (ha : tetAttrs[q]? = some a) : a.pair = q ∧ q < 4 ∧ SeedPair tetZ tetFace (tetSeed 23 (3 - q)) (tetSeed 3 (3 - q)) a.s1 a.s2 a.s3 := by
  have hq : q < 4 := (List.getElem?_eq_some_iff.1 ha).1
  interval_cases q <;> simp only [tetAttrs, List.getElem?_cons_zero, List.getElem?_cons_succ, Option.some.injEq] at ha <;> subst ha <;> refine ⟨rfl, by norm_num, ?_⟩ <;>
    refine tet_pair (by norm_num) (by norm_num) (by norm_num) (by norm_num) (by norm_num) (by norm_num) (by norm_num) (by norm_num) (by norm_num) (by norm_num) (by norm_num) ?_ ?_ ?_ <;>
    simp only [dot3, (areaVec_at _ _ _).1, (areaVec_at _ _ _).2.1, (areaVec_at _ _ _).2.2, (tetFace_area 0 (.inl rfl)).1, (tetFace_area 0 (.inl rfl)).2.1, (tetFace_area 0 (.inl rfl)).2.2,
      (tetFace_area 1 (.inr rfl)).1, (tetFace_area 1 (.inr rfl)).2.1, (tetFace_area 1 (.inr rfl)).2.2] <;> norm_num [tetSphere, tetV]

theorem tet_stored : StoredSeeds tetZ tetFace (tetSide 23) (tetSide 3) := by
  have mu : ∀ q, q < 4 → mergedSeed (tetSide 23) (tetSide 3) q = tetSeed 23 (3 - q) := fun q hq => by unfold mergedSeed; rw [if_pos (by exact hq)]; rfl
  have ml : ∀ q, mergedSeed (tetSide 23) (tetSide 3) (q + 4) = tetSeed 3 (3 - q) := fun q => by
    unfold mergedSeed; rw [if_neg (by show ¬ q + 4 < 4; omega)]; show tetSeed 3 (3 - (q + 4 - 4)) = _; rw [Nat.add_sub_cancel]
  refine ⟨rfl, rfl, fun q a ha => ?_, fun p q hp hq hne hside => ?_⟩
  · unfold mergeSeedAttrs at ha
    by_cases hq : q < 4
    · rw [List.getElem?_append_left (by exact hq), List.getElem?_map] at ha
      obtain ⟨a', ha', rfl⟩ := Option.map_eq_some_iff.1 ha
      obtain ⟨h1, -, h2⟩ := tet_ok ha'
      refine ⟨by show a'.pair + 4 < 8; omega, by show q < 4 ↔ 4 ≤ a'.pair + 4; omega, tetSeed 3 (3 - q), fun _ => by rw [mu q hq]; exact h2, fun h => absurd h (by show ¬ 4 ≤ q; omega), ?_⟩
      show euclid 3 _ (mergedSeed _ _ (a'.pair + 4)) < _
      rw [ml, h1, euclid_self]; norm_num
    · rw [List.getElem?_append_right (by exact not_lt.1 hq)] at ha
      obtain ⟨h1, h3, h2⟩ := tet_ok (q := q - 4) ha
      obtain ⟨p, rfl⟩ := Nat.exists_eq_add_of_le' (not_lt.1 hq)
      rw [Nat.add_sub_cancel] at h1 h2 h3
      refine ⟨by show a.pair < 8; omega, by show p + 4 < 4 ↔ 4 ≤ a.pair; omega, tetSeed 23 (3 - p), fun h => absurd h hq, fun _ => by rw [ml]; exact h2, ?_⟩
      rw [mu _ (by omega), h1, euclid_self]; norm_num
  · have hp : p < 8 := hp
    have hq : q < 8 := hq
    have hside : p < 4 ↔ q < 4 := hside
    refine le_trans (by norm_num : (1e-10 : ℝ) ≤ 1) ?_
    by_cases h : p < 4
    · rw [mu p h, mu q (hside.1 h)]
      exact tet_apart (.inl rfl) (by omega) (by omega) (by omega)
    · obtain ⟨p', rfl⟩ := Nat.exists_eq_add_of_le' (not_lt.1 h)
      obtain ⟨q', rfl⟩ := Nat.exists_eq_add_of_le' (not_lt.1 fun h' => h (hside.2 h'))
      rw [ml, ml]
      exact tet_apart (.inr rfl) (by omega) (by omega) (by omega)

/-- The eight seeds, and one in the middle. -/
noncomputable def tetSeeds : List SeedRec :=
  (List.range 8).map (fun q => ⟨mergedSeed (tetSide 23) (tetSide 3) q, 66, if q < 4 then 0 else 1⟩) ++ [⟨fun _ => 0, 1, 1⟩]

-- non-vacuity of `C104_triangle_is_face`: four spheres around a tetrahedron, their eight seeds and a seed in the middle; the triangle of spheres 0, 1, 2 is the face between seeds 0 and 4
example : ∀ z, InTri3 (tetSphere 0) (tetSphere 1) (tetSphere 2) z ↔ CommonFace tetSeeds 0 4 z := by
  have key := C104_triangle_is_face (q := 0) (a := ⟨4, 0, 1, 2⟩) (xs := tetSeeds) tet_stored tet_noGrazing (by
    show Watertight 4 [[0, 1, 2], [0, 3, 1], [0, 2, 3], [1, 3, 2]]
    unfold Watertight
    decide) rfl (.inl (by show 1 < 4; norm_num)) ⟨by simp [tetSeeds, tetSide], fun q hq d _ => by
      have hq : q < 8 := hq
      unfold seedPos tetSeeds
      rw [List.getElem?_append_left (by simpa using hq)]
      simp [hq], fun q hq hql s hs => by
      have hq : 8 ≤ q := hq
      have hql : q < 9 := by simpa [tetSeeds] using hql
      obtain rfl : q = 8 := by omega
      have hs' : s < 4 := by rcases hs with rfl | rfl | rfl <;> norm_num
      have e : seedPos tetSeeds 8 = fun _ => 0 := by
        unfold seedPos tetSeeds
        rw [List.getElem?_append_right (by simp)]
        simp
      rw [e, tetZ_at hs']
      have e3 : tetSphere s 3 = 66 := rfl
      rw [e3, sub_zero]
      refine le_dist (by norm_num) ?_
      interval_cases s <;> norm_num [tetSphere, tetV]⟩
  intro z
  have := key z
  rw [tetZ_at (s := 0) (by norm_num), tetZ_at (s := 1) (by norm_num), tetZ_at (s := 2) (by norm_num)] at this
  exact this

theorem tet_wide {i j k : Nat} (hi : i < 4) (hj : j < 4) (hk : k < 4) (hij : i ≠ j) (hik : i ≠ k) (hjk : j ≠ k) :
    (triNormal (centreTri (tetSphere i) (tetSphere j) (tetSphere k))).2 = true := by
  have he : ∀ i j, i < 4 → j < 4 → i ≠ j → ((tetSphere j 0 - tetSphere i 0) ^ 2 + (tetSphere j 1 - tetSphere i 1) ^ 2 + (tetSphere j 2 - tetSphere i 2) ^ 2) = 12168 := by
    intro i j hi hj hij
    interval_cases i <;> interval_cases j <;> first | exact absurd rfl hij | norm_num [tetSphere, tetV]
  have hl : ∀ v : V3, 0 ≤ len3 v := fun v => Real.sqrt_nonneg _
  rcases triNormal_spec (centreTri (tetSphere i) (tetSphere j) (tetSphere k)) with ⟨h, -⟩ | ⟨-, h⟩
  · exact h
  · exfalso
    set c := centreTri (tetSphere i) (tetSphere j) (tetSphere k) with hc
    have e1 : len3 (fun d => c 1 d - c 0 d) ^ 2 = 12168 := by
      rw [len3_sq, ← he i j hi hj hij]
      show (tetSphere j 0 - tetSphere i 0) * (tetSphere j 0 - tetSphere i 0) + (tetSphere j 1 - tetSphere i 1) * (tetSphere j 1 - tetSphere i 1) + (tetSphere j 2 - tetSphere i 2) * (tetSphere j 2 - tetSphere i 2) = _
      ring
    have e2 : len3 (fun d => c 2 d - c 0 d) ^ 2 = 12168 := by
      rw [len3_sq, ← he i k hi hk hik]
      show (tetSphere k 0 - tetSphere i 0) * (tetSphere k 0 - tetSphere i 0) + (tetSphere k 1 - tetSphere i 1) * (tetSphere k 1 - tetSphere i 1) + (tetSphere k 2 - tetSphere i 2) * (tetSphere k 2 - tetSphere i 2) = _
      ring
    have e3 : 10000 ≤ len3 (areaVec c) ^ 2 := by
      rw [len3_sq]
      unfold dot3
      rw [hc, (areaVec_at _ _ _).1, (areaVec_at _ _ _).2.1, (areaVec_at _ _ _).2.2]
      clear_value c
      clear e1 e2 h hc he
      interval_cases i <;> interval_cases j <;> first | exact absurd rfl hij | (interval_cases k <;> first | exact absurd rfl hik | exact absurd rfl hjk | norm_num [tetSphere, tetV])
    have g1 := hl fun d => c 1 d - c 0 d
    have g2 := hl fun d => c 2 d - c 0 d
    have g3 := hl (areaVec c)
    have b1 : len3 (fun d => c 1 d - c 0 d) ≤ 111 := by nlinarith
    have b2 : len3 (fun d => c 2 d - c 0 d) ≤ 111 := by nlinarith
    have b3 : 100 ≤ len3 (areaVec c) := by nlinarith
    rcases h with h | h | h
    · nlinarith
    · nlinarith
    · have := mul_le_mul b1 b2 g2 (by norm_num)
      nlinarith

theorem tet_attrs_lt : ∀ a ∈ mergeSeedAttrs (tetSide 23) (tetSide 3), a.s1 < 4 ∧ a.s2 < 4 ∧ a.s3 < 4 := by
  intro a ha
  obtain ⟨q, hq⟩ := List.mem_iff_getElem?.1 ha
  have := (tet_stored.exact tet_noGrazing hq).seed.valid
  exact ⟨this _ (.inl rfl), this _ (.inr (.inl rfl)), this _ (.inr (.inr rfl))⟩

theorem tet_watertight : Watertight 4 ((tetSide 3).attr.map fun a => [a.s1, a.s2, a.s3]) := by
  show Watertight 4 [[0, 1, 2], [0, 3, 1], [0, 2, 3], [1, 3, 2]]
  unfold Watertight
  decide

theorem tet_notThin : NotThin tetZ (tetSide 23) (tetSide 3) := by
  intro a ha i j k hp
  obtain ⟨q, hq⟩ := List.mem_iff_getElem?.1 ha
  have sa := (tet_stored.exact tet_noGrazing hq).seed
  have hnd : [i, j, k].Nodup := hp.nodup (by simp [sa.ne12, sa.ne13, sa.ne23])
  have hlt' : ∀ x ∈ [i, j, k], x < 4 := fun x hx => by
    have := hp.mem_iff.2 hx
    obtain ⟨h1, h2, h3⟩ := tet_attrs_lt a ha
    simp only [List.mem_cons, List.not_mem_nil, or_false] at this
    rcases this with rfl | rfl | rfl <;> assumption
  simp only [List.nodup_cons, List.mem_cons, List.not_mem_nil, or_false, not_or, List.nodup_nil, not_false_eq_true, and_true] at hnd
  have hi := hlt' i (by simp)
  have hj := hlt' j (by simp)
  have hk := hlt' k (by simp)
  rw [tetZ_at hi, tetZ_at hj, tetZ_at hk]
  exact tet_wide hi hj hk hnd.1.1 hnd.1.2 hnd.2

theorem tet_oneFan : ∀ i, i < tetZ.S.num → OneFan (fanEnvOf tetZ (tetSide 23) (tetSide 3)) i := by
  have hc : ∀ i u x v y : Fin 4, linkCheck (mergeSeedAttrs (tetSide 23) (tetSide 3)) i u x = true → linkCheck (mergeSeedAttrs (tetSide 23) (tetSide 3)) i v y = true →
      u = v ∨ linkCheck (mergeSeedAttrs (tetSide 23) (tetSide 3)) i u v = true := by
    show ∀ i u x v y : Fin 4, linkCheck [⟨4, 0, 1, 2⟩, ⟨5, 0, 3, 1⟩, ⟨6, 0, 2, 3⟩, ⟨7, 1, 3, 2⟩, ⟨0, 0, 1, 2⟩, ⟨1, 0, 3, 1⟩, ⟨2, 0, 2, 3⟩, ⟨3, 1, 3, 2⟩] i u x = true → _
    decide +kernel
  rintro i hi u v ⟨x, hx⟩ ⟨y, hy⟩
  obtain ⟨h1, h2⟩ := linked_lt tet_attrs_lt hx
  obtain ⟨h3, h4⟩ := linked_lt tet_attrs_lt hy
  rcases hc ⟨i, hi⟩ ⟨u, h1⟩ ⟨x, h2⟩ ⟨v, h3⟩ ⟨y, h4⟩ ((linked_iff _ _ _ _).1 hx) ((linked_iff _ _ _ _).1 hy) with h | h
  · cases h; exact Relation.ReflTransGen.refl
  · exact Relation.ReflTransGen.single ((linked_iff _ _ _ _).2 h)

-- non-vacuity of `C104_regions`: the same tetrahedron
example (e : Nat) (he : e < 8) : ∃ G c g reg nr, linkSpheres 4 4 (mergeSeedAttrs (tetSide 23) (tetSide 3)) 0 { rows := none, cap := 0 } = some G ∧
    colourSpheres (fanEnvOf tetZ (tetSide 23) (tetSide 3)) 4 8 G 4 (fun _ => 0) { rows := none, cap := 0 } = some (c, g) ∧ colourSeeds g 8 e = some (reg, nr) ∧ reg e = 0 := by
  obtain ⟨G, c, g, reg, nr, e1, e2, e3, e4, -⟩ := C104_regions tet_stored tet_noGrazing tet_notThin tet_watertight rfl tet_oneFan 4 8 0 0 le_rfl le_rfl e he
  exact ⟨G, c, g, reg, nr, e1, e2, e3, e4⟩

end VoroCrust
