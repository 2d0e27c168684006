import Verif.Props.ConformCase
import Verif.Props.RunEdges
import Verif.Props.SheetCases

/-! A closed surface with a sharp edge for C110: the centres are the corners of an octahedron; the top and the bottom are surface spheres, the four spheres of the equator are edge spheres. -/

namespace VoroCrust

open Classical

/-- Top, bottom, and the equator counterclockwise. -/
def gemI : Nat → Nat → ℤ
  | 0, 2 => 1
  | 1, 2 => -1
  | 2, 0 => 1
  | 3, 1 => 1
  | 4, 0 => -1
  | 5, 1 => -1
  | _, _ => 0

/-- The octants: four above and four below. -/
def gemSign : Nat → Nat → ℤ
  | 0, 0 => 1
  | 0, 1 => 1
  | 1, 0 => -1
  | 1, 1 => 1
  | 2, 0 => -1
  | 2, 1 => -1
  | 3, 0 => 1
  | 3, 1 => -1
  | 4, 0 => 1
  | 4, 1 => 1
  | 5, 0 => -1
  | 5, 1 => 1
  | 6, 0 => -1
  | 6, 1 => -1
  | 7, 0 => 1
  | 7, 1 => -1
  | v, _ => if v < 4 then 1 else -1

/-- The opposite corner. -/
def gemOpp : Nat → Nat
  | 0 => 1
  | 1 => 0
  | 2 => 4
  | 3 => 5
  | 4 => 2
  | _ => 3

def dotI (u v : Nat → ℤ) : ℤ := u 0 * v 0 + u 1 * v 1 + u 2 * v 2

def gemSphere (s d : Nat) : ℝ := if d < 3 then 39 * (gemI s d : ℝ) else 33

theorem gem_tree {k : Nat} (f : Nat → Nat → ℝ) (hk : 0 < k) : ∃ ln, buildBalanced { pts := f, num := k, dim := 3, lt := realLt } false = some ln := by
  obtain ⟨ln, -, e, -⟩ := buildBalanced_spec (P := { pts := f, num := k, dim := 3, lt := realLt }) false (by norm_num) hk realLt_asymm
  exact ⟨ln, e⟩

noncomputable def gemZ : SphereSet :=
  { S := { pts := gemSphere, num := 2, dim := 3, lt := realLt }, lnS := (gem_tree (k := 2) gemSphere (by norm_num)).choose
    E := { pts := fun s => gemSphere (s + 2), num := 4, dim := 3, lt := realLt }, lnE := (gem_tree (k := 4) (fun s => gemSphere (s + 2)) (by norm_num)).choose
    C := { pts := fun _ _ => 0, num := 0, dim := 3, lt := fun _ _ => false }, lnC := ⟨id, id, none, 0⟩ }

/-- The faces the two surface spheres were placed on. -/
def gemFace : Nat → Fin 3 → V3
  | 0 => ![![0, 0, 0], ![1, 0, 0], ![0, 1, 0]]
  | _ => ![![0, 0, 0], ![0, 1, 0], ![1, 0, 0]]

/-- The seed in octant `v`: outside for `t = 18`, inside for `t = 8`. -/
def gemSeed (t : ℝ) (v d : Nat) : ℝ := if d < 3 then t * (gemSign v d : ℝ) else 33

def gemAttrs : List SeedAttr := [⟨0, 0, 2, 3⟩, ⟨1, 0, 3, 4⟩, ⟨2, 0, 4, 5⟩, ⟨3, 0, 5, 2⟩, ⟨4, 1, 3, 2⟩, ⟨5, 1, 4, 3⟩, ⟨6, 1, 5, 4⟩, ⟨7, 1, 2, 5⟩]

def gemSide (t : ℝ) : SeedTree := ⟨{ pts := gemSeed t, num := 8, cap := 8, links := ⟨id, id, none, 0⟩ }, gemAttrs⟩

theorem gemZ_at {s : Nat} (h : s < 6) : gemZ.at s = gemSphere s := by
  unfold SphereSet.at
  by_cases h2 : s < 2
  · rw [if_pos (by exact h2)]; rfl
  · rw [if_neg (by exact h2), if_pos (by exact h)]
    show gemSphere (s - 2 + 2) = _
    rw [show s - 2 + 2 = s by omega]

theorem gemZ_total : gemZ.total = 6 := rfl

theorem gem_dist {t : ℝ} {v s : Nat} (hv : v < 8) (hs : s < 6) :
    (gemSeed t v 0 - gemSphere s 0) ^ 2 + (gemSeed t v 1 - gemSphere s 1) ^ 2 + (gemSeed t v 2 - gemSphere s 2) ^ 2 = 3 * t ^ 2 - 78 * t * (dotI (gemI s) (gemSign v) : ℝ) + 1521 := by
  have h1 : ∀ v : Fin 8, ∀ d : Fin 3, gemSign v d * gemSign v d = 1 := by decide +kernel
  have h2 : ∀ s : Fin 6, dotI (gemI s) (gemI s) = 1 := by decide +kernel
  have a0 : (gemSign v 0 * gemSign v 0 : ℝ) = 1 := by exact_mod_cast h1 ⟨v, hv⟩ 0
  have a1 : (gemSign v 1 * gemSign v 1 : ℝ) = 1 := by exact_mod_cast h1 ⟨v, hv⟩ 1
  have a2 : (gemSign v 2 * gemSign v 2 : ℝ) = 1 := by exact_mod_cast h1 ⟨v, hv⟩ 2
  have b : (gemI s 0 * gemI s 0 + gemI s 1 * gemI s 1 + gemI s 2 * gemI s 2 : ℝ) = 1 := by exact_mod_cast h2 ⟨s, hs⟩
  unfold dotI
  push_cast
  simp only [gemSeed, gemSphere, Nat.reduceLT, if_true]
  linear_combination t ^ 2 * (a0 + a1 + a2) + 1521 * b

theorem gem_on {t : ℝ} (ht : t = 18 ∨ t = 8) {v s : Nat} (hv : v < 8) (hs : s < 6) (h : dotI (gemI s) (gemSign v) = 1) : euclid 3 (gemSeed t v) (gemSphere s) = 33 := by
  refine dist_eq (by norm_num) ?_
  rw [gem_dist hv hs, h]
  rcases ht with rfl | rfl <;> norm_num

theorem gem_off {t : ℝ} (ht : t = 18 ∨ t = 8) {v s : Nat} (hv : v < 8) (hs : s < 6) (h : dotI (gemI s) (gemSign v) ≠ 1) : 48 ≤ euclid 3 (gemSeed t v) (gemSphere s) := by
  refine le_dist (by norm_num) ?_
  have key : ∀ v : Fin 8, ∀ s : Fin 6, dotI (gemI s) (gemSign v) = 1 ∨ dotI (gemI s) (gemSign v) = -1 := by decide +kernel
  rw [gem_dist hv hs, (key ⟨v, hv⟩ ⟨s, hs⟩).resolve_left h]
  rcases ht with rfl | rfl <;> norm_num

theorem gem_noGrazing : NoGrazing gemZ := by
  intro i j k s x hi hj hk hs hij hik hjk hsi hsj hsk hon _
  rw [gemZ_total] at hi hj hk hs
  obtain ⟨o1, o2, o3⟩ := hon
  rw [gemZ_at hi] at o1
  rw [gemZ_at hj] at o2
  rw [gemZ_at hk] at o3
  have h2 : ∀ s : Fin 6, dotI (gemI s) (gemI s) = 1 := by decide +kernel
  have sq : ∀ w, w < 6 → euclid 3 x (gemSphere w) ^ 2 = x 0 ^ 2 + x 1 ^ 2 + x 2 ^ 2 - 78 * (x 0 * gemI w 0 + x 1 * gemI w 1 + x 2 * gemI w 2) + 1521 := fun w hw => by
    have b : (gemI w 0 * gemI w 0 + gemI w 1 * gemI w 1 + gemI w 2 * gemI w 2 : ℝ) = 1 := by exact_mod_cast h2 ⟨w, hw⟩
    rw [euclid3_sq]
    simp only [gemSphere, Nat.reduceLT, if_true]
    linear_combination 1521 * b
  have hop : ∀ w : Fin 6, ∀ d : Fin 3, gemI (gemOpp w) d = -gemI w d := by decide +kernel
  have hol : ∀ w : Fin 6, gemOpp w < 6 := by decide +kernel
  have sqo : ∀ w, w < 6 → euclid 3 x (gemSphere (gemOpp w)) ^ 2 = x 0 ^ 2 + x 1 ^ 2 + x 2 ^ 2 + 78 * (x 0 * gemI w 0 + x 1 * gemI w 1 + x 2 * gemI w 2) + 1521 := fun w hw => by
    rw [sq _ (hol ⟨w, hw⟩)]
    have e0 : (gemI (gemOpp w) 0 : ℝ) = -gemI w 0 := by exact_mod_cast hop ⟨w, hw⟩ 0
    have e1 : (gemI (gemOpp w) 1 : ℝ) = -gemI w 1 := by exact_mod_cast hop ⟨w, hw⟩ 1
    have e2 : (gemI (gemOpp w) 2 : ℝ) = -gemI w 2 := by exact_mod_cast hop ⟨w, hw⟩ 2
    rw [e0, e1, e2]
    ring
  have no : ∀ w, w < 6 → euclid 3 x (gemSphere w) = 33 → euclid 3 x (gemSphere (gemOpp w)) ≠ 33 := fun w hw h1 h3 => by
    have g1 := sq w hw
    have g2 := sqo w hw
    rw [h1] at g1
    rw [h3] at g2
    nlinarith [sq_nonneg (x 0), sq_nonneg (x 1), sq_nonneg (x 2)]
  have far : euclid 3 x (gemSphere (gemOpp s)) = 33 → gemZ.at s 3 + 1e-10 ≤ euclid 3 x (gemZ.at s) := fun h => by
    have g1 := sq s hs
    have g2 := sqo s hs
    rw [h] at g2
    rw [gemZ_at hs, show gemSphere s 3 = 33 from rfl]
    have : (34 : ℝ) ^ 2 ≤ euclid 3 x (gemSphere s) ^ 2 := by nlinarith [sq_nonneg (x 0), sq_nonneg (x 1), sq_nonneg (x 2)]
    have := (pow_le_pow_iff_left₀ (by norm_num) (euclid_nonneg _ _ _) two_ne_zero).1 this
    norm_num
    linarith
  have key : ∀ i j k s : Fin 6, i ≠ j → i ≠ k → j ≠ k → s ≠ i → s ≠ j → s ≠ k → gemOpp s = i ∨ gemOpp s = j ∨ gemOpp s = k ∨ gemOpp i = j ∨ gemOpp i = k ∨ gemOpp j = k := by decide +kernel
  have e33 : ∀ w, gemSphere w 3 = 33 := fun _ => rfl
  rw [e33] at o1 o2 o3
  rcases key ⟨i, hi⟩ ⟨j, hj⟩ ⟨k, hk⟩ ⟨s, hs⟩ (by simpa using hij) (by simpa using hik) (by simpa using hjk) (by simpa using hsi) (by simpa using hsj) (by simpa using hsk) with h | h | h | h | h | h
  · exact far (by simp only at h; rw [h]; exact o1)
  · exact far (by simp only at h; rw [h]; exact o2)
  · exact far (by simp only at h; rw [h]; exact o3)
  · exact absurd o2 (by have := no i hi o1; simp only at h; rwa [h] at this)
  · exact absurd o3 (by have := no i hi o1; simp only at h; rwa [h] at this)
  · exact absurd o3 (by have := no j hj o2; simp only at h; rwa [h] at this)

/-! ## Seeds -/

/-- Twice the area of a triangle of corners, as a vector. -/
def gemArea (i j k d : Nat) : ℤ :=
  (gemI j ((d + 1) % 3) - gemI i ((d + 1) % 3)) * (gemI k ((d + 2) % 3) - gemI i ((d + 2) % 3)) - (gemI j ((d + 2) % 3) - gemI i ((d + 2) % 3)) * (gemI k ((d + 1) % 3) - gemI i ((d + 1) % 3))

theorem gem_area (i j k : Nat) (d : Fin 3) : areaVec (centreTri (gemSphere i) (gemSphere j) (gemSphere k)) d = 1521 * (gemArea i j k d : ℝ) := by
  unfold gemArea
  fin_cases d
  · refine (areaVec_at _ _ _).1.trans ?_
    norm_num [gemSphere]; ring
  · refine (areaVec_at _ _ _).2.1.trans ?_
    norm_num [gemSphere]; ring
  · refine (areaVec_at _ _ _).2.2.trans ?_
    norm_num [gemSphere]; ring

theorem gemFace_area {i : Nat} (hi : i < 2) (d : Fin 3) : areaVec (gemFace i) d = gemI i d := by
  interval_cases i <;> fin_cases d <;> norm_num [areaVec, cross3, gemFace, gemI] <;> simp

theorem gem_pair {i j k v : Nat} (hv : v < 8) (hi : i < 2) (hj : j < 6) (hk : k < 6) (hij : i < j) (hik : i < k) (hjk : j ≠ k)
    (hsum : ∀ d : Fin 3, gemI i d + gemI j d + gemI k d = gemSign v d) (h1 : dotI (gemI i) (gemSign v) = 1) (h2 : dotI (gemI j) (gemSign v) = 1) (h3 : dotI (gemI k) (gemSign v) = 1)
    (h4 : ∀ s : Fin 6, s.val ≠ i → s.val ≠ j → s.val ≠ k → dotI (gemI s) (gemSign v) ≠ 1)
    (hor : ∀ d : Fin 3, gemArea i j k d = gemSign v d) : SeedPair gemZ gemFace (gemSeed 18 v) (gemSeed 8 v) i j k := by
  have hi6 : i < 6 := by omega
  have hs1 : ∀ v : Fin 8, ∀ d : Fin 3, gemSign v d * gemSign v d = 1 := by decide +kernel
  have a0 : (gemSign v 0 * gemSign v 0 : ℝ) = 1 := by exact_mod_cast hs1 ⟨v, hv⟩ 0
  have a1 : (gemSign v 1 * gemSign v 1 : ℝ) = 1 := by exact_mod_cast hs1 ⟨v, hv⟩ 1
  have a2 : (gemSign v 2 * gemSign v 2 : ℝ) = 1 := by exact_mod_cast hs1 ⟨v, hv⟩ 2
  have hdot : ∀ w, dotI (gemI w) (gemSign v) = 1 → (gemI w 0 * gemSign v 0 + gemI w 1 * gemSign v 1 + gemI w 2 * gemSign v 2 : ℝ) = 1 := fun w h => by exact_mod_cast h
  have hdiff : ∀ q : V3, dot3 q (toV3 (gemSeed 18 v - gemSeed 8 v)) = 10 * dot3 q fun d => (gemSign v d : ℝ) := fun q => by
    simp only [dot3, toV3, Pi.sub_apply, gemSeed, Fin.isLt, if_true]; ring
  have hnor : ∃ c, 0 < c ∧ ∀ d, (triNormal (gemFace i)).1 d = c * areaVec (gemFace i) d := by
    rcases triNormal_spec (gemFace i) with ⟨-, -, -, h⟩ | ⟨-, h⟩
    · exact h
    · exfalso
      have l3 : len3 (areaVec (gemFace i)) = 1 := by
        interval_cases i <;> simp [len3, dot3, gemFace, areaVec, cross3]
      have l1 : len3 (fun d => gemFace i 1 d - gemFace i 0 d) = 1 := by
        interval_cases i <;> simp [len3, dot3, gemFace]
      have l2 : len3 (fun d => gemFace i 2 d - gemFace i 0 d) = 1 := by
        interval_cases i <;> simp [len3, dot3, gemFace]
      rw [l1, l2, l3] at h
      norm_num at h
  obtain ⟨c, hc, hn⟩ := hnor
  have hdn : dot3 (triNormal (gemFace i)).1 (toV3 (gemSeed 18 v - gemSeed 8 v)) = 10 * c := by
    rw [hdiff]; unfold dot3; rw [hn 0, hn 1, hn 2, gemFace_area hi, gemFace_area hi, gemFace_area hi]
    have := hdot i h1
    show 10 * (c * (gemI i 0 : ℝ) * (gemSign v 0 : ℝ) + c * (gemI i 1 : ℝ) * (gemSign v 1 : ℝ) + c * (gemI i 2 : ℝ) * (gemSign v 2 : ℝ)) = _
    linear_combination 10 * c * this
  have hpos : dot3 (areaVec (centreTri (gemSphere i) (gemSphere j) (gemSphere k))) (toV3 (gemSeed 18 v - gemSeed 8 v)) = 45630 := by
    rw [hdiff]; unfold dot3; rw [gem_area, gem_area, gem_area, hor 0, hor 1, hor 2]
    show 10 * (1521 * (gemSign v 0 : ℝ) * (gemSign v 0 : ℝ) + 1521 * (gemSign v 1 : ℝ) * (gemSign v 1 : ℝ) + 1521 * (gemSign v 2 : ℝ) * (gemSign v 2 : ℝ)) = _
    linear_combination 15210 * (a0 + a1 + a2)
  have on : ∀ t : ℝ, t = 18 ∨ t = 8 → OnThree gemZ i j k (gemSeed t v) := fun t ht => by
    refine ⟨?_, ?_, ?_⟩
    · rw [gemZ_at hi6]; exact gem_on ht hv hi6 h1
    · rw [gemZ_at hj]; exact gem_on ht hv hj h2
    · rw [gemZ_at hk]; exact gem_on ht hv hk h3
  have off : ∀ t : ℝ, t = 18 ∨ t = 8 → ∀ s, s < gemZ.total → s ≠ i → s ≠ j → s ≠ k → gemZ.at s 3 ≤ euclid 3 (gemSeed t v) (gemZ.at s) := fun t ht s hs n1 n2 n3 => by
    rw [gemZ_total] at hs
    have := gem_off ht hv hs (h4 ⟨s, hs⟩ n1 n2 n3)
    rw [gemZ_at hs, show gemSphere s 3 = 33 from rfl]; linarith
  have hmin : min (min (gemZ.at i 3) (gemZ.at j 3)) (gemZ.at k 3) = 33 := by
    rw [gemZ_at hi6, gemZ_at hj, gemZ_at hk]
    have e : ∀ s, gemSphere s 3 = 33 := fun _ => rfl
    rw [e, e, e]; simp
  have hperp : ∀ w, dotI (gemI w) (gemSign v) = 1 → ip 3 (fun d => 5 * (gemSign v d : ℝ)) (fun d => gemSphere w d - gemSphere i d) = 0 := fun w hw => by
    rw [ip3]
    simp only [gemSphere, Nat.reduceLT, if_true]
    linear_combination 195 * (hdot w hw) - 195 * (hdot i h1)
  refine ⟨hi, ⟨hij, hik, hjk⟩, ⟨hj, hk⟩, on 18 (.inl rfl), on 8 (.inr rfl), fun h0 => ?_, ?_, ?_, ?_, fun h => ?_, ?_, fun s hs n1 n2 n3 => ⟨off 18 (.inl rfl) s hs n1 n2 n3, off 8 (.inr rfl) s hs n1 n2 n3⟩,
    by rw [hmin]; rfl, by rw [hmin]; rfl⟩
  · rw [gemZ_at hi6, gemZ_at hj, gemZ_at hk] at h0
    rw [h0] at hpos
    simp [dot3] at hpos
  · rw [gemZ_at hi6, gemZ_at hj, gemZ_at hk]
    refine ⟨fun d => 13 * (gemSign v d : ℝ), fun d => 5 * (gemSign v d : ℝ), ⟨1 / 3, 1 / 3, fun d hd => ?_⟩, hperp j h2, hperp k h3, fun d hd => ?_⟩
    · have : (gemI i d + gemI j d + gemI k d : ℝ) = gemSign v d := by exact_mod_cast hsum ⟨d, hd⟩
      simp only [gemSphere, hd, if_true]; linear_combination (-13) * this
    · simp only [gemSeed, hd, if_true]; constructor <;> ring
  · refine le_trans (by norm_num : (2e-10 : ℝ) ≤ 10) (le_dist (by norm_num) ?_)
    simp only [gemSeed, Nat.reduceLT, if_true]
    nlinarith
  · rw [hdn]; positivity
  · rw [hdn]; positivity
  · rw [gemZ_at hi6, gemZ_at hj, gemZ_at hk, hpos]; norm_num

theorem gem_ok {q : Nat} {a : SeedAttr} (ha : gemAttrs[q]? = some a) : a.pair = q ∧ q < 8 ∧ SeedPair gemZ gemFace (gemSeed 18 q) (gemSeed 8 q) a.s1 a.s2 a.s3 := by
  have hq : q < 8 := (List.getElem?_eq_some_iff.1 ha).1
  interval_cases q <;> simp only [gemAttrs, List.getElem?_cons_zero, List.getElem?_cons_succ, Option.some.injEq] at ha <;> subst ha <;> refine ⟨rfl, by norm_num, ?_⟩ <;>
    exact gem_pair (by norm_num) (by norm_num) (by norm_num) (by norm_num) (by norm_num) (by norm_num) (by norm_num) (by decide +kernel) (by decide +kernel) (by decide +kernel) (by decide +kernel) (by decide +kernel) (by decide +kernel)

theorem gem_apart {t : ℝ} (ht : t = 18 ∨ t = 8) {v w : Nat} (hv : v < 8) (hw : w < 8) (hne : v ≠ w) : 1 ≤ euclid 3 (gemSeed t v) (gemSeed t w) := by
  refine le_dist (by norm_num) ?_
  have key : ∀ v w : Fin 8, v ≠ w → 1 ≤ (gemSign v 0 - gemSign w 0) ^ 2 + (gemSign v 1 - gemSign w 1) ^ 2 + (gemSign v 2 - gemSign w 2) ^ 2 := by decide +kernel
  have : (1 : ℝ) ≤ (gemSign v 0 - gemSign w 0) ^ 2 + (gemSign v 1 - gemSign w 1) ^ 2 + (gemSign v 2 - gemSign w 2) ^ 2 := by exact_mod_cast key ⟨v, hv⟩ ⟨w, hw⟩ (by simpa using hne)
  simp only [gemSeed, Nat.reduceLT, if_true]
  rcases ht with rfl | rfl <;> nlinarith

theorem gem_upper {q : Nat} (hq : q < 8) : mergedSeed (gemSide 18) (gemSide 8) q = gemSeed 18 q := by unfold mergedSeed; rw [if_pos (by exact hq)]; rfl

theorem gem_lower (q : Nat) : mergedSeed (gemSide 18) (gemSide 8) (q + 8) = gemSeed 8 q := by
  unfold mergedSeed; rw [if_neg (by show ¬ q + 8 < 8; omega)]; show gemSeed 8 (q + 8 - 8) = _; rw [Nat.add_sub_cancel]

theorem gem_stored : StoredSeeds gemZ gemFace (gemSide 18) (gemSide 8) := by
  refine ⟨rfl, rfl, fun q a ha => ?_, fun p q hp hq hne hside => ?_⟩
  · unfold mergeSeedAttrs at ha
    by_cases hq : q < 8
    · rw [List.getElem?_append_left (by exact hq), List.getElem?_map] at ha
      obtain ⟨a', ha', rfl⟩ := Option.map_eq_some_iff.1 ha
      obtain ⟨h1, -, h2⟩ := gem_ok ha'
      refine ⟨by show a'.pair + 8 < 16; omega, by show q < 8 ↔ 8 ≤ a'.pair + 8; omega, gemSeed 8 q, fun _ => by rw [gem_upper hq]; exact h2, fun h => absurd h (by show ¬ 8 ≤ q; omega), ?_⟩
      show euclid 3 _ (mergedSeed _ _ (a'.pair + 8)) < _
      rw [gem_lower, h1, euclid_self]; norm_num
    · rw [List.getElem?_append_right (by exact not_lt.1 hq)] at ha
      obtain ⟨h1, h3, h2⟩ := gem_ok (q := q - 8) ha
      obtain ⟨p, rfl⟩ := Nat.exists_eq_add_of_le' (not_lt.1 hq)
      rw [Nat.add_sub_cancel] at h1 h2 h3
      refine ⟨by show a.pair < 16; omega, by show p + 8 < 8 ↔ 8 ≤ a.pair; omega, gemSeed 18 p, fun h => absurd h hq, fun _ => by rw [gem_lower]; exact h2, ?_⟩
      rw [gem_upper (by omega), h1, euclid_self]; norm_num
  · have hp : p < 16 := hp
    have hq : q < 16 := hq
    have hside : p < 8 ↔ q < 8 := hside
    refine le_trans (by norm_num : (1e-10 : ℝ) ≤ 1) ?_
    by_cases h : p < 8
    · rw [gem_upper h, gem_upper (hside.1 h)]
      exact gem_apart (.inl rfl) (by omega) (by omega) (by omega)
    · obtain ⟨p', rfl⟩ := Nat.exists_eq_add_of_le' (not_lt.1 h)
      obtain ⟨q', rfl⟩ := Nat.exists_eq_add_of_le' (not_lt.1 fun h' => h (hside.2 h'))
      rw [gem_lower, gem_lower]
      exact gem_apart (.inr rfl) (by omega) (by omega) (by omega)

/-! ## Triangles -/

def gemPairs : List SeedAttr := [⟨8, 0, 2, 3⟩, ⟨9, 0, 3, 4⟩, ⟨10, 0, 4, 5⟩, ⟨11, 0, 5, 2⟩, ⟨12, 1, 3, 2⟩, ⟨13, 1, 4, 3⟩, ⟨14, 1, 5, 4⟩, ⟨15, 1, 2, 5⟩, ⟨0, 0, 2, 3⟩, ⟨1, 0, 3, 4⟩, ⟨2, 0, 4, 5⟩, ⟨3, 0, 5, 2⟩, ⟨4, 1, 3, 2⟩, ⟨5, 1, 4, 3⟩,
  ⟨6, 1, 5, 4⟩, ⟨7, 1, 2, 5⟩]

theorem gem_pairs : mergeSeedAttrs (gemSide 18) (gemSide 8) = gemPairs := rfl

noncomputable abbrev gemFans : FanEnv := fanEnvOf gemZ (gemSide 18) (gemSide 8)

theorem gem_attrs_lt : ∀ a ∈ mergeSeedAttrs (gemSide 18) (gemSide 8), a.s1 < 6 ∧ a.s2 < 6 ∧ a.s3 < 6 := by
  rw [gem_pairs]
  decide +kernel

theorem gem_watertight : Watertight 2 ((gemSide 8).attr.map fun a => [a.s1, a.s2, a.s3]) := by
  show Watertight 2 (gemAttrs.map fun a => [a.s1, a.s2, a.s3])
  unfold Watertight
  decide +kernel

theorem gem_wide {i j k : Nat} (hi : i < 6) (hj : j < 6) (hk : k < 6) (hij : dotI (gemI i) (gemI j) = 0) (hik : dotI (gemI i) (gemI k) = 0) (hjk : dotI (gemI j) (gemI k) = 0) :
    (triNormal (centreTri (gemSphere i) (gemSphere j) (gemSphere k))).2 = true := by
  have h2 : ∀ s : Fin 6, dotI (gemI s) (gemI s) = 1 := by decide +kernel
  have hsq : ∀ i j, i < 6 → j < 6 → dotI (gemI i) (gemI j) = 0 → ((gemSphere j 0 - gemSphere i 0) * (gemSphere j 0 - gemSphere i 0) + (gemSphere j 1 - gemSphere i 1) * (gemSphere j 1 - gemSphere i 1) +
      (gemSphere j 2 - gemSphere i 2) * (gemSphere j 2 - gemSphere i 2)) = 3042 := by
    intro i j hi hj h
    have b1 : (gemI i 0 * gemI i 0 + gemI i 1 * gemI i 1 + gemI i 2 * gemI i 2 : ℝ) = 1 := by exact_mod_cast h2 ⟨i, hi⟩
    have b2 : (gemI j 0 * gemI j 0 + gemI j 1 * gemI j 1 + gemI j 2 * gemI j 2 : ℝ) = 1 := by exact_mod_cast h2 ⟨j, hj⟩
    have b3 : (gemI i 0 * gemI j 0 + gemI i 1 * gemI j 1 + gemI i 2 * gemI j 2 : ℝ) = 0 := by exact_mod_cast h
    simp only [gemSphere, Nat.reduceLT, if_true]
    linear_combination 1521 * b1 + 1521 * b2 - 3042 * b3
  have hl : ∀ v : V3, 0 ≤ len3 v := fun v => Real.sqrt_nonneg _
  rcases triNormal_spec (centreTri (gemSphere i) (gemSphere j) (gemSphere k)) with ⟨h, -⟩ | ⟨-, h⟩
  · exact h
  · exfalso
    have e3 : len3 (areaVec (centreTri (gemSphere i) (gemSphere j) (gemSphere k))) ^ 2 = 6940323 := by
      have key : ∀ i j k : Fin 6, dotI (gemI i) (gemI j) = 0 → dotI (gemI i) (gemI k) = 0 → dotI (gemI j) (gemI k) = 0 → gemArea i j k 0 * gemArea i j k 0 + gemArea i j k 1 * gemArea i j k 1 + gemArea i j k 2 * gemArea i j k 2 = 3 := by decide +kernel
      have b : (gemArea i j k 0 * gemArea i j k 0 + gemArea i j k 1 * gemArea i j k 1 + gemArea i j k 2 * gemArea i j k 2 : ℝ) = 3 := by exact_mod_cast key ⟨i, hi⟩ ⟨j, hj⟩ ⟨k, hk⟩ hij hik hjk
      rw [len3_sq]
      unfold dot3
      rw [gem_area, gem_area, gem_area]
      show 1521 * (gemArea i j k 0 : ℝ) * (1521 * (gemArea i j k 0 : ℝ)) + 1521 * (gemArea i j k 1 : ℝ) * (1521 * (gemArea i j k 1 : ℝ)) + 1521 * (gemArea i j k 2 : ℝ) * (1521 * (gemArea i j k 2 : ℝ)) = _
      linear_combination 2313441 * b
    set c := centreTri (gemSphere i) (gemSphere j) (gemSphere k) with hc
    have e1 : len3 (fun d => c 1 d - c 0 d) ^ 2 = 3042 := by
      rw [len3_sq]
      exact hsq i j hi hj hij
    have e2 : len3 (fun d => c 2 d - c 0 d) ^ 2 = 3042 := by
      rw [len3_sq]
      exact hsq i k hi hk hik
    clear_value c
    have g1 := hl fun d => c 1 d - c 0 d
    have g2 := hl fun d => c 2 d - c 0 d
    have g3 := hl (areaVec c)
    have b1 : len3 (fun d => c 1 d - c 0 d) ≤ 56 := by nlinarith
    have b2 : len3 (fun d => c 2 d - c 0 d) ≤ 56 := by nlinarith
    have b3 : 100 ≤ len3 (areaVec c) := by nlinarith
    rcases h with h | h | h
    · nlinarith
    · nlinarith
    · have := mul_le_mul b1 b2 g2 (by norm_num)
      nlinarith

theorem gem_notThin : NotThin gemZ (gemSide 18) (gemSide 8) := by
  intro a ha i j k hp
  have hR : ∀ a ∈ gemPairs, dotI (gemI a.s1) (gemI a.s2) = 0 ∧ dotI (gemI a.s1) (gemI a.s3) = 0 ∧ dotI (gemI a.s2) (gemI a.s3) = 0 := by decide +kernel
  obtain ⟨r1, r2, r3⟩ := hR a ha
  have hpw : [i, j, k].Pairwise fun x y => dotI (gemI x) (gemI y) = 0 := by
    refine (hp.pairwise_iff (fun {x y} h => ?_)).1 ?_
    · rw [← h]; unfold dotI; ring
    · simp [r1, r2, r3]
  have hlt' : ∀ x ∈ [i, j, k], x < 6 := fun x hx => by
    have := hp.mem_iff.2 hx
    obtain ⟨h1, h2, h3⟩ := gem_attrs_lt a ha
    simp only [List.mem_cons, List.not_mem_nil, or_false] at this
    rcases this with rfl | rfl | rfl <;> assumption
  simp only [List.pairwise_cons, List.mem_cons, List.not_mem_nil, or_false, forall_eq_or_imp, forall_eq] at hpw
  have hi := hlt' i (by simp)
  have hj := hlt' j (by simp)
  have hk := hlt' k (by simp)
  rw [gemZ_at hi, gemZ_at hj, gemZ_at hk]
  exact gem_wide hi hj hk hpw.1.1 hpw.1.2 hpw.2.1

theorem gem_oneFan : ∀ i, i < gemZ.S.num → OneFan gemFans i := by
  have hc : ∀ (i : Fin 2) (u x v y : Fin 6), linkCheck gemPairs i u x = true → linkCheck gemPairs i v y = true →
      u = v ∨ ∃ z : Fin 6, linkCheck gemPairs i u z = true ∧ (z = v ∨ linkCheck gemPairs i z v = true) := by decide +kernel
  rintro i hi u v ⟨x, hx⟩ ⟨y, hy⟩
  obtain ⟨h1, h2⟩ := linked_lt gem_attrs_lt hx
  obtain ⟨h3, h4⟩ := linked_lt gem_attrs_lt hy
  rcases hc ⟨i, hi⟩ ⟨u, h1⟩ ⟨x, h2⟩ ⟨v, h3⟩ ⟨y, h4⟩ ((linked_iff _ _ _ _).1 hx) ((linked_iff _ _ _ _).1 hy) with h | ⟨z, hz, h | h⟩
  · cases h; exact Relation.ReflTransGen.refl
  · cases h; exact Relation.ReflTransGen.single ((linked_iff _ _ _ _).2 hz)
  · exact (Relation.ReflTransGen.single ((linked_iff gemFans i u z).2 hz)).tail ((linked_iff _ _ _ _).2 h)

end VoroCrust
