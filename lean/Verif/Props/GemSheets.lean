import Verif.Props.GemCase

/-! The octahedron for C110: the sheets around the edge spheres and the two sides of the surface. -/

namespace VoroCrust

open Classical

/-- Neighbours on the equator. -/
def GemAdj (i v : Nat) : Prop := 2 ≤ i ∧ i < 6 ∧ 2 ≤ v ∧ v < 6 ∧ i % 2 ≠ v % 2

instance (i v : Nat) : Decidable (GemAdj i v) := by unfold GemAdj; infer_instance

theorem gem_linked {i : Nat} (h2 : 2 ≤ i) (h6 : i < 6) (u v : Nat) : FanLinked gemFans i u v ↔ (u < 2 ∧ GemAdj i v) ∨ (v < 2 ∧ GemAdj i u) := by
  have hc : ∀ i u v : Fin 6, 2 ≤ i.val → (linkCheck gemPairs i u v = true ↔ (u.val < 2 ∧ GemAdj i v) ∨ (v.val < 2 ∧ GemAdj i u)) := by decide +kernel
  constructor
  · intro h
    obtain ⟨h1, h3⟩ := linked_lt gem_attrs_lt h
    exact (hc ⟨i, h6⟩ ⟨u, h1⟩ ⟨v, h3⟩ h2).1 ((linked_iff _ _ _ _).1 h)
  · intro h
    have hu : u < 6 := by rcases h with ⟨h, -⟩ | ⟨-, h⟩; omega; exact h.2.2.2.1
    have hv : v < 6 := by rcases h with ⟨-, h⟩ | ⟨h, -⟩; exact h.2.2.2.1; omega
    exact (linked_iff _ _ _ _).2 ((hc ⟨i, h6⟩ ⟨u, hu⟩ ⟨v, hv⟩ h2).2 h)

theorem gem_two : ∀ i, i < 6 → ∀ w, TwoTriangles gemFans i w := by
  refine twoTriangles_check gem_attrs_lt ?_
  show ∀ i w u : Fin 6, linkCheck gemPairs i u w = true → ∃ v : Fin 6, v ≠ u ∧ linkCheck gemPairs i w v = true ∧ ∀ x : Fin 6, linkCheck gemPairs i w x = true → x = u ∨ x = v
  decide +kernel

theorem gem_sheaf {i nb : Nat} (h : GemAdj i nb) : Sheaf gemFans 2 i nb := by
  obtain ⟨h1, h2, h3, h4, h5⟩ := id h
  have hat : ∀ n j u w, SheetAt gemFans 2 i nb j n u w → (u = nb ∧ w < 2) ∨ (2 ≤ w ∧ w ≠ nb) := by
    intro n
    induction n with
    | zero =>
      rintro j u w ⟨rfl, rfl, h1'⟩
      rw [gem_linked h1 h2] at h1'
      unfold GemAdj at h1'
      omega
    | succ n ih =>
      rintro j u w ⟨x, g1, g2, g3, g4⟩
      have := ih j x u g1
      rw [gem_linked h1 h2] at g4
      unfold GemAdj at g4
      omega
  refine ⟨h3, fun w _ => gem_two i h2 w, fun j hj => ?_, ?_, fun u w hl => ?_⟩
  · rw [gem_linked h1 h2] at hj; unfold GemAdj at hj; omega
  · rintro j u ⟨n, hn⟩
    have := hat n j u nb hn
    omega
  · have hon : ∀ x y, x < 2 → GemAdj i y → ∃ j, OnSheet gemFans 2 i nb j x y ∨ OnSheet gemFans 2 i nb j y x := by
      intro x y hx hy
      have h0 : SheetAt gemFans 2 i nb x 0 nb x := ⟨rfl, rfl, (gem_linked h1 h2 _ _).2 (.inr ⟨hx, h⟩)⟩
      by_cases hyn : y = nb
      · subst hyn; exact ⟨x, Or.inr ⟨0, h0⟩⟩
      · exact ⟨x, Or.inl ⟨1, nb, h0, hx, hyn, (gem_linked h1 h2 _ _).2 (.inl ⟨hx, hy⟩)⟩⟩
    rcases (gem_linked h1 h2 u w).1 hl with ⟨g1, g2⟩ | ⟨g1, g2⟩
    · exact hon u w g1 g2
    · obtain ⟨j, g3⟩ := hon w u g1 g2
      exact ⟨j, g3.symm⟩

theorem gem_centre {s : Nat} (hs : s < 6) (d : Fin 3) : gemFans.sphere s d = 39 * (gemI s d : ℝ) := by
  show gemZ.at s d = _
  rw [gemZ_at hs]
  unfold gemSphere
  rw [if_pos d.2]

theorem gem_fanArea {i j k : Nat} (hi : i < 6) (hj : j < 6) (hk : k < 6) (d : Fin 3) : areaVec ![gemFans.sphere i, gemFans.sphere j, gemFans.sphere k] d = 1521 * (gemArea i j k d : ℝ) := by
  show areaVec (centreTri (gemZ.at i) (gemZ.at j) (gemZ.at k)) d = _
  rw [gemZ_at hi, gemZ_at hj, gemZ_at hk, gem_area]

/-- The coordinates of the sheets: the first one lies on the axis, the other one in the left half plane off the axis. -/
theorem gem_coords {i nb j0 j : Nat} (h : GemAdj i nb) (h0 : j0 < 2) (hj : j < 2) :
    (j = j0 → 1 ≤ sheetX gemFans i nb j0 j ∧ sheetY gemFans i nb j0 j = 0) ∧ (j ≠ j0 → sheetX gemFans i nb j0 j ≤ -1 ∧ 1 ≤ |sheetY gemFans i nb j0 j|) := by
  obtain ⟨h1, h2, h3, h4, h5⟩ := id h
  have k1 : ∀ i nb : Fin 6, GemAdj i nb → (gemI nb 0 - gemI i 0) * (gemI nb 0 - gemI i 0) + (gemI nb 1 - gemI i 1) * (gemI nb 1 - gemI i 1) + (gemI nb 2 - gemI i 2) * (gemI nb 2 - gemI i 2) = 2 := by decide +kernel
  have k2 : ∀ i nb : Fin 6, ∀ j0 : Fin 2, GemAdj i nb → gemArea i nb j0 0 * gemArea i nb j0 0 + gemArea i nb j0 1 * gemArea i nb j0 1 + gemArea i nb j0 2 * gemArea i nb j0 2 = 3 := by decide +kernel
  have k3 : ∀ i nb : Fin 6, ∀ j0 j : Fin 2, GemAdj i nb → (j = j0 → gemArea i nb j0 0 * gemArea i nb j 0 + gemArea i nb j0 1 * gemArea i nb j 1 + gemArea i nb j0 2 * gemArea i nb j 2 = 3) ∧
      (j ≠ j0 → gemArea i nb j0 0 * gemArea i nb j 0 + gemArea i nb j0 1 * gemArea i nb j 1 + gemArea i nb j0 2 * gemArea i nb j 2 = -1) := by decide +kernel
  have k4 : ∀ i nb : Fin 6, ∀ j0 j : Fin 2, GemAdj i nb → (j = j0 → (gemI nb 0 - gemI i 0) * gemArea i j0 j 0 + (gemI nb 1 - gemI i 1) * gemArea i j0 j 1 + (gemI nb 2 - gemI i 2) * gemArea i j0 j 2 = 0) ∧
      (j ≠ j0 → 2 ≤ |(gemI nb 0 - gemI i 0) * gemArea i j0 j 0 + (gemI nb 1 - gemI i 1) * gemArea i j0 j 1 + (gemI nb 2 - gemI i 2) * gemArea i j0 j 2|) := by decide +kernel
  have r1 : ((gemI nb 0 - gemI i 0) * (gemI nb 0 - gemI i 0) + (gemI nb 1 - gemI i 1) * (gemI nb 1 - gemI i 1) + (gemI nb 2 - gemI i 2) * (gemI nb 2 - gemI i 2) : ℝ) = 2 := by exact_mod_cast k1 ⟨i, h2⟩ ⟨nb, h4⟩ h
  have r2 : (gemArea i nb j0 0 * gemArea i nb j0 0 + gemArea i nb j0 1 * gemArea i nb j0 1 + gemArea i nb j0 2 * gemArea i nb j0 2 : ℝ) = 3 := by exact_mod_cast k2 ⟨i, h2⟩ ⟨nb, h4⟩ ⟨j0, h0⟩ h
  have hj6 : j < 6 := by omega
  have h06 : j0 < 6 := by omega
  have ea : len3 (fun d => gemFans.sphere nb d - gemFans.sphere i d) ^ 2 = 3042 := by
    rw [len3_sq]
    unfold dot3
    simp only [gem_centre h4, gem_centre h2]
    show (39 * (gemI nb 0 : ℝ) - 39 * gemI i 0) * (39 * (gemI nb 0 : ℝ) - 39 * gemI i 0) + (39 * (gemI nb 1 : ℝ) - 39 * gemI i 1) * (39 * (gemI nb 1 : ℝ) - 39 * gemI i 1) + (39 * (gemI nb 2 : ℝ) - 39 * gemI i 2) * (39 * (gemI nb 2 : ℝ) - 39 * gemI i 2) = _
    linear_combination 1521 * r1
  have eb : len3 (areaVec ![gemFans.sphere i, gemFans.sphere nb, gemFans.sphere j0]) ^ 2 = 6940323 := by
    rw [len3_sq]
    unfold dot3
    rw [gem_fanArea h2 h4 h06, gem_fanArea h2 h4 h06, gem_fanArea h2 h4 h06]
    show 1521 * (gemArea i nb j0 0 : ℝ) * (1521 * gemArea i nb j0 0) + 1521 * (gemArea i nb j0 1 : ℝ) * (1521 * gemArea i nb j0 1) + 1521 * (gemArea i nb j0 2 : ℝ) * (1521 * gemArea i nb j0 2) = _
    linear_combination 2313441 * r2
  have ex : dot3 (areaVec ![gemFans.sphere i, gemFans.sphere nb, gemFans.sphere j0]) (areaVec ![gemFans.sphere i, gemFans.sphere nb, gemFans.sphere j]) =
      2313441 * (gemArea i nb j0 0 * gemArea i nb j 0 + gemArea i nb j0 1 * gemArea i nb j 1 + gemArea i nb j0 2 * gemArea i nb j 2 : ℝ) := by
    unfold dot3
    rw [gem_fanArea h2 h4 h06, gem_fanArea h2 h4 h06, gem_fanArea h2 h4 h06, gem_fanArea h2 h4 hj6, gem_fanArea h2 h4 hj6, gem_fanArea h2 h4 hj6]
    show 1521 * (gemArea i nb j0 0 : ℝ) * (1521 * gemArea i nb j 0) + 1521 * (gemArea i nb j0 1 : ℝ) * (1521 * gemArea i nb j 1) + 1521 * (gemArea i nb j0 2 : ℝ) * (1521 * gemArea i nb j 2) = _
    ring
  have ey : dot3 (fun d => gemFans.sphere nb d - gemFans.sphere i d) (cross3 (fun d => gemFans.sphere j0 d - gemFans.sphere i d) (fun d => gemFans.sphere j d - gemFans.sphere i d)) =
      59319 * ((gemI nb 0 - gemI i 0) * gemArea i j0 j 0 + (gemI nb 1 - gemI i 1) * gemArea i j0 j 1 + (gemI nb 2 - gemI i 2) * gemArea i j0 j 2 : ℝ) := by
    have hc : cross3 (fun d => gemFans.sphere j0 d - gemFans.sphere i d) (fun d => gemFans.sphere j d - gemFans.sphere i d) = areaVec ![gemFans.sphere i, gemFans.sphere j0, gemFans.sphere j] := rfl
    rw [hc]
    unfold dot3
    rw [gem_fanArea h2 h06 hj6, gem_fanArea h2 h06 hj6, gem_fanArea h2 h06 hj6]
    simp only [gem_centre h4, gem_centre h2]
    show (39 * (gemI nb 0 : ℝ) - 39 * gemI i 0) * (1521 * gemArea i j0 j 0) + (39 * (gemI nb 1 : ℝ) - 39 * gemI i 1) * (1521 * gemArea i j0 j 1) + (39 * (gemI nb 2 : ℝ) - 39 * gemI i 2) * (1521 * gemArea i j0 j 2) = _
    ring
  have a0 : 0 ≤ len3 (fun d => gemFans.sphere nb d - gemFans.sphere i d) := Real.sqrt_nonneg _
  have b0 : 0 ≤ len3 (areaVec ![gemFans.sphere i, gemFans.sphere nb, gemFans.sphere j0]) := Real.sqrt_nonneg _
  unfold sheetX sheetY
  rw [ex, ey]
  set A := len3 (fun d => gemFans.sphere nb d - gemFans.sphere i d)
  set B := len3 (areaVec ![gemFans.sphere i, gemFans.sphere nb, gemFans.sphere j0])
  clear_value A B
  have a1 : 0 < A := by nlinarith
  have b1 : 0 < B := by nlinarith
  have a2 : A ≤ 56 := by nlinarith
  have b2 : B ≤ 2635 := by nlinarith
  refine ⟨fun e => ⟨?_, ?_⟩, fun e => ⟨?_, ?_⟩⟩
  · have r3 : (gemArea i nb j0 0 * gemArea i nb j 0 + gemArea i nb j0 1 * gemArea i nb j 1 + gemArea i nb j0 2 * gemArea i nb j 2 : ℝ) = 3 := by
      exact_mod_cast (k3 ⟨i, h2⟩ ⟨nb, h4⟩ ⟨j0, h0⟩ ⟨j, hj⟩ h).1 (by simpa using e)
    rw [r3, le_div_iff₀ (mul_pos a1 b1)]
    nlinarith [mul_le_mul a2 b2 b1.le (by norm_num)]
  · have r4 : ((gemI nb 0 - gemI i 0) * gemArea i j0 j 0 + (gemI nb 1 - gemI i 1) * gemArea i j0 j 1 + (gemI nb 2 - gemI i 2) * gemArea i j0 j 2 : ℝ) = 0 := by
      exact_mod_cast (k4 ⟨i, h2⟩ ⟨nb, h4⟩ ⟨j0, h0⟩ ⟨j, hj⟩ h).1 (by simpa using e)
    rw [r4]; simp
  · have r3 : (gemArea i nb j0 0 * gemArea i nb j 0 + gemArea i nb j0 1 * gemArea i nb j 1 + gemArea i nb j0 2 * gemArea i nb j 2 : ℝ) = -1 := by
      exact_mod_cast (k3 ⟨i, h2⟩ ⟨nb, h4⟩ ⟨j0, h0⟩ ⟨j, hj⟩ h).2 (by simpa using e)
    rw [r3, div_le_iff₀ (mul_pos a1 b1)]
    nlinarith [mul_le_mul a2 b2 b1.le (by norm_num)]
  · have r4 : (2 : ℝ) ≤ |((gemI nb 0 - gemI i 0) * gemArea i j0 j 0 + (gemI nb 1 - gemI i 1) * gemArea i j0 j 1 + (gemI nb 2 - gemI i 2) * gemArea i j0 j 2 : ℝ)| := by
      exact_mod_cast (k4 ⟨i, h2⟩ ⟨nb, h4⟩ ⟨j0, h0⟩ ⟨j, hj⟩ h).2 (by simpa using e)
    rw [abs_div, abs_of_pos b1, le_div_iff₀ b1, abs_mul, abs_of_pos (by norm_num : (0 : ℝ) < 59319)]
    linarith

theorem gem_in {i nb v : Nat} (h1 : 2 ≤ i) (h2 : i < 6) (h : 2 ≤ nb) (hl : FanLinked gemFans i nb v) : GemAdj i nb ∧ v < 2 := by
  rw [gem_linked h1 h2] at hl
  rcases hl with ⟨hl, -⟩ | ⟨h3, h4⟩
  · omega
  · exact ⟨h4, h3⟩

theorem gem_edge {i : Nat} (hi1 : 2 ≤ i) (hi2 : i < 6) : EdgeOk gemFans 2 i := by
  have hin : ∀ {nb v}, 2 ≤ nb → FanLinked gemFans i nb v → GemAdj i nb ∧ v < 2 := fun {nb v} h1 h2 => gem_in hi1 hi2 h1 h2
  refine ⟨?_, fun nb v h1 h2 => gem_sheaf (hin h1 h2).1, fun nb j0 j h1 h2 h3 => ?_, fun nb j0 j k θ h1 h2 h3 h4 h5 h6 => ?_⟩
  · have : GemAdj i (if i % 2 = 0 then 3 else 2) := by
      unfold GemAdj
      split <;> omega
    exact ⟨_, 0, this.2.2.1, (gem_linked hi1 hi2 _ _).2 (.inr ⟨by norm_num, this⟩)⟩
  · obtain ⟨y, z⟩ := gem_coords (hin h1 h2).1 (hin h1 h2).2 (hin h1 h3).2
    by_cases e : j = j0
    · obtain ⟨x, y⟩ := y e
      exact ⟨Or.inl (by linarith), Or.inl y.ge, Or.inl (by rw [abs_of_nonneg (by linarith)]; linarith)⟩
    · obtain ⟨x, z⟩ := z e
      refine ⟨Or.inr (by linarith), ?_, Or.inl (by rw [abs_of_nonpos (by linarith)]; linarith)⟩
      rcases le_abs.1 z with w | w
      · exact Or.inl (by linarith)
      · exact Or.inr (by linarith)
  · obtain ⟨y, z⟩ := gem_coords (hin h1 h2).1 (hin h1 h2).2 (hin h1 h3).2
    obtain ⟨y', z'⟩ := gem_coords (hin h1 h2).1 (hin h1 h2).2 (hin h1 h4).2
    obtain ⟨-, -, r, hr, e1, -⟩ := h5
    obtain ⟨-, -, r', hr', e1', -⟩ := h6
    by_contra hjk
    have hb := (hin h1 h2).2
    have hc := (hin h1 h3).2
    have hd := (hin h1 h4).2
    by_cases e : j = j0
    · have g1 := (y e).1
      have g2 := (z' (fun e' => hjk (e.trans e'.symm))).1
      rw [e1] at g1
      rw [e1'] at g2
      have c1 : 0 < Real.cos θ := by by_contra hh; nlinarith
      nlinarith
    · have g1 := (z e).1
      have g2 := (y' (by omega)).1
      rw [e1] at g1
      rw [e1'] at g2
      have c1 : 0 < Real.cos θ := by by_contra hh; nlinarith
      nlinarith

/-! ## The two sides -/

/-- The seeds: eight outside, eight inside. -/
def gemPosi (q d : Nat) : ℤ := if q < 8 then 18 * gemSign q d else 8 * gemSign (q - 8) d

theorem gem_merged {q d : Nat} (hd : d < 3) : mergedSeed (gemSide 18) (gemSide 8) q d = gemPosi q d := by
  unfold gemPosi
  by_cases h : q < 8
  · rw [gem_upper h, if_pos h]
    unfold gemSeed
    rw [if_pos hd]
    push_cast
    ring
  · obtain ⟨p, rfl⟩ := Nat.exists_eq_add_of_le' (not_lt.1 h)
    rw [gem_lower, if_neg h, Nat.add_sub_cancel]
    unfold gemSeed
    rw [if_pos hd]
    push_cast
    ring

/-- The test for the side of a seed, up to a factor. -/
def gemDot (i u w s p : Nat) : ℤ :=
  (gemPosi p 0 - gemPosi s 0) * gemArea i u w 0 + (gemPosi p 1 - gemPosi s 1) * gemArea i u w 1 + (gemPosi p 2 - gemPosi s 2) * gemArea i u w 2

theorem gem_below {i u w s p : Nat} (hi : i < 6) (hu : u < 6) (hw : w < 6) : PairBelow gemFans i u w s p ↔ 0 < gemDot i u w s p := by
  have e : dot3 (fun d => gemFans.seed p d - gemFans.seed s d) (areaVec ![gemFans.sphere i, gemFans.sphere u, gemFans.sphere w]) = 1521 * (gemDot i u w s p : ℝ) := by
    unfold dot3
    rw [gem_fanArea hi hu hw, gem_fanArea hi hu hw, gem_fanArea hi hu hw]
    have h : ∀ q (d : Fin 3), gemFans.seed q d = gemPosi q d := fun q d => gem_merged d.2
    simp only [h]
    unfold gemDot
    push_cast
    show ((gemPosi p 0 : ℝ) - gemPosi s 0) * (1521 * gemArea i u w 0) + ((gemPosi p 1 : ℝ) - gemPosi s 1) * (1521 * gemArea i u w 1) + ((gemPosi p 2 : ℝ) - gemPosi s 2) * (1521 * gemArea i u w 2) = _
    ring
  unfold PairBelow
  rw [e]
  constructor
  · intro h
    have : (0 : ℝ) < (gemDot i u w s p : ℝ) := by linarith
    exact_mod_cast this
  · intro h
    have : (0 : ℝ) < (gemDot i u w s p : ℝ) := by exact_mod_cast h
    linarith

def gemSpokes (i s u v : Nat) : Bool := match gemPairs[s]? with | none => false | some a => decide ([a.s1, a.s2, a.s3].Perm [i, u, v])

theorem gem_spokes (i s u v : Nat) : Spokes gemFans i s u v ↔ gemSpokes i s u v = true := by
  unfold Spokes gemSpokes
  rw [show gemFans.attr = gemPairs from rfl]
  cases h : gemPairs[s]? with
  | none => simp
  | some a => simp

theorem gem_spokes_lt {i s u v : Nat} (h : Spokes gemFans i s u v) : s < 16 ∧ i < 6 ∧ u < 6 ∧ v < 6 := by
  obtain ⟨a, e, hp⟩ := h
  have hs : s < 16 := (List.getElem?_eq_some_iff.1 e).1
  obtain ⟨h1, h2, h3⟩ := gem_attrs_lt a (List.mem_of_getElem? e)
  have : ∀ x ∈ [i, u, v], x < 6 := fun x hx => by
    have := hp.mem_iff.2 hx
    simp only [List.mem_cons, List.not_mem_nil, or_false] at this
    rcases this with rfl | rfl | rfl <;> assumption
  exact ⟨hs, this i (by simp), this u (by simp), this v (by simp)⟩

theorem gem_partner {s : Nat} (hs : s < 16) (p : Nat) : Partner gemFans s p ↔ p = (s + 8) % 16 := by
  have key : ∀ s : Fin 16, ∃ a, gemPairs[s.val]? = some a ∧ a.pair = (s + 8) % 16 := by
    intro s
    fin_cases s <;> exact ⟨_, rfl, rfl⟩
  obtain ⟨a, e, h⟩ := key ⟨s, hs⟩
  constructor
  · rintro ⟨b, eb, rfl⟩
    rw [show gemFans.attr = gemPairs from rfl] at eb
    simp only at e
    rw [e] at eb
    rw [← Option.some.inj eb, h]
  · rintro rfl
    exact ⟨a, e, h⟩

/-- The seed of a triangle is outside exactly if its partner lies against the orientation of the table. -/
theorem gem_side {i s u w p : Nat} (h : Spokes gemFans i s u w) (hp : Partner gemFans s p) : PairBelow gemFans i u w s p ↔ (s < 8 ↔ ¬ 0 < dotI (gemArea i u w) (gemSign (s % 8))) := by
  obtain ⟨hs, hi, hu, hw⟩ := gem_spokes_lt h
  rw [gem_partner hs] at hp
  subst hp
  rw [gem_below hi hu hw]
  have key : ∀ i u w : Fin 6, ∀ s : Fin 16, gemSpokes i s u w = true → (0 < gemDot i u w s ((s + 8) % 16) ↔ (s.val < 8 ↔ ¬ 0 < dotI (gemArea i u w) (gemSign (s % 8)))) := by decide +kernel
  exact key ⟨i, hi⟩ ⟨u, hu⟩ ⟨w, hw⟩ ⟨s, hs⟩ ((gem_spokes _ _ _ _).1 h)

/-- The orientation of a triangle of the equatorial sphere `i`, `u`, `w`, coming from its neighbour `nb`. -/
def gemTurn (i nb j : Nat) : Bool := decide (nb = 2 + (i - 1) % 4) == decide (j = 0)

theorem gem_onSheet {i nb j u w : Nat} (h : GemAdj i nb) (ho : OnSheet gemFans 2 i nb j u w) : j < 2 ∧ ((u = nb ∧ w = j) ∨ (u = j ∧ GemAdj i w ∧ w ≠ nb)) := by
  obtain ⟨h1, h2, h3, h4, h5⟩ := id h
  obtain ⟨n, hn⟩ := ho
  have hj := (gem_in h1 h2 h3 hn.start).2
  refine ⟨hj, ?_⟩
  match n, hn with
  | 0, ⟨e1, e2, _⟩ => exact .inl ⟨e1, e2⟩
  | 1, ⟨x, ⟨e1, e2, _⟩, e3, e4, e5⟩ =>
    right
    subst e1
    subst e2
    rw [gem_linked h1 h2] at e5
    rcases e5 with ⟨-, e5⟩ | ⟨-, e5⟩
    · exact ⟨rfl, e5, e4⟩
    · exact absurd e5.2.2.1 (by omega)
  | n + 2, ⟨x, ⟨y, g1, g2, g3, g4⟩, e3, e4, e5⟩ =>
    exfalso
    rw [gem_linked h1 h2] at g4
    rcases g4 with ⟨-, g4⟩ | ⟨-, g4⟩
    · exact absurd g4.2.2.1 (by omega)
    · exact absurd g4.2.2.1 (by omega)

theorem gem_sheetSide {i nb j u w s : Nat} (h : GemAdj i nb) (ho : OnSheet gemFans 2 i nb j u w) (hs : Spokes gemFans i s u w) : 0 < dotI (gemArea i u w) (gemSign (s % 8)) ↔ gemTurn i nb j = true := by
  obtain ⟨hs', hi, hu, hw⟩ := gem_spokes_lt hs
  obtain ⟨hj, hc⟩ := gem_onSheet h ho
  have key : ∀ i nb u w : Fin 6, ∀ j : Fin 2, ∀ s : Fin 16, GemAdj i nb → ((u = nb ∧ w.val = j.val) ∨ (u.val = j.val ∧ GemAdj i w ∧ w ≠ nb)) → gemSpokes i s u w = true →
      (0 < dotI (gemArea i u w) (gemSign (s % 8)) ↔ gemTurn i nb j = true) := by decide +kernel
  exact key ⟨i, hi⟩ ⟨nb, h.2.2.2.1⟩ ⟨u, hu⟩ ⟨w, hw⟩ ⟨j, hj⟩ ⟨s, hs'⟩ h (by simpa [Fin.ext_iff] using hc) ((gem_spokes _ _ _ _).1 hs)

theorem gem_sheetBelow {i nb j s : Nat} (h : GemAdj i nb) (hb : SheetBelow gemFans 2 i nb j s) : s < 8 ↔ gemTurn i nb j = false := by
  obtain ⟨u, w, p, ho, hs, hp, hq⟩ := hb
  rw [gem_side hs hp, gem_sheetSide h ho hs] at hq
  rw [hq]; simp

theorem gem_sheetAbove {i nb j s : Nat} (h : GemAdj i nb) (hb : SheetAbove gemFans 2 i nb j s) : s < 8 ↔ gemTurn i nb j = true := by
  obtain ⟨u, w, p, ho, hs, hp, hq⟩ := hb
  rw [gem_side hs hp, gem_sheetSide h ho hs] at hq
  tauto

theorem gem_turn_ne {i nb j k : Nat} (hj : j < 2) (hk : k < 2) (hne : j ≠ k) : gemTurn i nb j = !gemTurn i nb k := by
  unfold gemTurn
  interval_cases j <;> interval_cases k <;> first | exact absurd rfl hne | (cases decide (nb = 2 + (i - 1) % 4) <;> rfl)

/-- The sheets have different angles. -/
theorem gem_angles {i nb j0 : Nat} {α : Nat → ℝ} (hi1 : 2 ≤ i) (hi2 : i < 6) (hf : SheetFrame gemFans 2 i nb j0 α) {j k : Nat} (hj : FanLinked gemFans i nb j) (hk : FanLinked gemFans i nb k) (e : α j = α k) : j = k := by
  obtain ⟨h1, h2, h3⟩ := hf
  exact (gem_edge hi1 hi2).angles nb j0 j k (α j) h1 h2 hj hk (h3 j hj) (by rw [e]; exact h3 k hk)

theorem gem_sector {i nb j0 s t : Nat} {α : Nat → ℝ} (hi1 : 2 ≤ i) (hi2 : i < 6) (hf : SheetFrame gemFans 2 i nb j0 α) (h : SameSector gemFans 2 i nb α s t) : s < 8 ↔ t < 8 := by
  have hadj := (gem_in hi1 hi2 hf.1 hf.2.1).1
  rcases h with ⟨j, ⟨a, b⟩ | ⟨a, b⟩⟩ | ⟨j, k, hn, hc⟩
  · rw [gem_sheetBelow hadj a, gem_sheetBelow hadj b]
  · rw [gem_sheetAbove hadj a, gem_sheetAbove hadj b]
  · obtain ⟨lj, lk, hn⟩ := hn
    have hne : j ≠ k := by
      rintro rfl
      rcases hn with ⟨hn, -⟩ | ⟨n1, n2⟩
      · exact lt_irrefl _ hn
      · have l0 : FanLinked gemFans i nb 0 := (gem_linked hi1 hi2 _ _).2 (.inr ⟨by norm_num, hadj⟩)
        have l1 : FanLinked gemFans i nb 1 := (gem_linked hi1 hi2 _ _).2 (.inr ⟨by norm_num, hadj⟩)
        have e : α 0 = α 1 := ((le_antisymm (n1 0 l0) (n2 0 l0)).trans (le_antisymm (n1 1 l1) (n2 1 l1)).symm)
        exact absurd (gem_angles hi1 hi2 hf l0 l1 e) (by norm_num)
    have ht := gem_turn_ne (i := i) (nb := nb) (gem_in hi1 hi2 hf.1 lj).2 (gem_in hi1 hi2 hf.1 lk).2 hne
    rcases hc with ⟨a, b⟩ | ⟨a, b⟩
    · rw [gem_sheetAbove hadj a, gem_sheetBelow hadj b, ht]; simp
    · rw [gem_sheetBelow hadj a, gem_sheetAbove hadj b, ht]; simp

theorem gem_turnStep {i s t : Nat} (h : TurnStep gemFans i s t) (hi : i < 2) : s < 8 ↔ t < 8 := by
  obtain ⟨u, w, v, p, q, h1, h2, h3, h4, h5, h6⟩ := h
  rw [gem_side h2 h4, gem_side h3 h5] at h6
  obtain ⟨hs, hi6, hu, hw⟩ := gem_spokes_lt h2
  obtain ⟨ht, -, -, hv⟩ := gem_spokes_lt h3
  have k1 : ∀ i : Fin 2, ∀ u w : Fin 6, ∀ s : Fin 16, gemSpokes i s u w = true → (0 < dotI (gemArea i u w) (gemSign (s % 8)) ↔ (w.val = 2 + (u.val - 1) % 4 ↔ i.val = 0)) := by decide +kernel
  have k2 : ∀ i : Fin 2, ∀ u w : Fin 6, ∀ s : Fin 16, gemSpokes i s u w = true → u.val = 2 + (w.val - 1) % 4 ∨ w.val = 2 + (u.val - 1) % 4 := by decide +kernel
  have k3 : ∀ u w v : Fin 6, u ≠ v → 2 ≤ u.val → 2 ≤ w.val → 2 ≤ v.val → (u.val = 2 + (w.val - 1) % 4 ∨ w.val = 2 + (u.val - 1) % 4) → (w.val = 2 + (v.val - 1) % 4 ∨ v.val = 2 + (w.val - 1) % 4) →
      (w.val = 2 + (u.val - 1) % 4 ↔ v.val = 2 + (w.val - 1) % 4) := by decide +kernel
  have k4 : ∀ i : Fin 2, ∀ u w : Fin 6, ∀ s : Fin 16, gemSpokes i s u w = true → 2 ≤ u.val ∧ 2 ≤ w.val := by decide +kernel
  have b2 := (gem_spokes _ _ _ _).1 h2
  have b3 := (gem_spokes _ _ _ _).1 h3
  rw [k1 ⟨i, hi⟩ ⟨u, hu⟩ ⟨w, hw⟩ ⟨s, hs⟩ b2, k1 ⟨i, hi⟩ ⟨w, hw⟩ ⟨v, hv⟩ ⟨t, ht⟩ b3] at h6
  have := k3 ⟨u, hu⟩ ⟨w, hw⟩ ⟨v, hv⟩ (by simpa using h1) (k4 ⟨i, hi⟩ ⟨u, hu⟩ ⟨w, hw⟩ ⟨s, hs⟩ b2).1 (k4 ⟨i, hi⟩ ⟨u, hu⟩ ⟨w, hw⟩ ⟨s, hs⟩ b2).2 (k4 ⟨i, hi⟩ ⟨w, hw⟩ ⟨v, hv⟩ ⟨t, ht⟩ b3).2
    (k2 ⟨i, hi⟩ ⟨u, hu⟩ ⟨w, hw⟩ ⟨s, hs⟩ b2) (k2 ⟨i, hi⟩ ⟨w, hw⟩ ⟨v, hv⟩ ⟨t, ht⟩ b3)
  simp only at this h6
  tauto

theorem gem_around {i : Nat} (h1 : 2 ≤ i) (h2 : i < 6) : ∃ s u v, Spokes gemFans i s u v := by
  have key : ∀ i : Fin 6, 2 ≤ i.val → ∃ s : Fin 16, ∃ u v : Fin 6, gemSpokes i s u v = true := by decide +kernel
  obtain ⟨s, u, v, h⟩ := key ⟨i, h2⟩ h1
  exact ⟨s, u, v, (gem_spokes _ _ _ _).2 h⟩

theorem gem_sides {nb j0 : Nat → Nat} {α : Nat → Nat → ℝ} (hf : EdgeFrames gemZ (gemSide 18) (gemSide 8) nb j0 α) {s t : Nat} (h : JoinedSeeds gemZ (gemSide 18) (gemSide 8) nb α s t) : s < 8 ↔ t < 8 := by
  induction h with
  | refl => rfl
  | tail _ hstep ih =>
    rw [ih]
    obtain ⟨i, ⟨hi, hstep⟩ | ⟨h1, h2, hstep⟩⟩ := hstep
    · exact gem_turnStep hstep hi
    · have h1 : 2 ≤ i := h1
      have h2 : i < 6 := h2
      exact gem_sector h1 h2 (hf i h1 h2 (gem_around h1 h2)) hstep

/-- All seeds outside are on one side. -/
theorem gem_outer {nb j0 : Nat → Nat} {α : Nat → Nat → ℝ} (hf : EdgeFrames gemZ (gemSide 18) (gemSide 8) nb j0 α) {s t : Nat} (hs : s < 8) (ht : t < 8) : JoinedSeeds gemZ (gemSide 18) (gemSide 8) nb α s t := by
  have hturn : ∀ i u w v s t, i < 2 → u ≠ v → gemSpokes i s u w = true → gemSpokes i t w v = true →
      ((s < 8 ↔ ¬ 0 < dotI (gemArea i u w) (gemSign (s % 8))) ↔ (t < 8 ↔ ¬ 0 < dotI (gemArea i w v) (gemSign (t % 8)))) → JoinedSeeds gemZ (gemSide 18) (gemSide 8) nb α s t := by
    intro i u w v s t hi h1 h2 h3 h4
    have g2 := (gem_spokes _ _ _ _).2 h2
    have g3 := (gem_spokes _ _ _ _).2 h3
    have p2 := (gem_partner (gem_spokes_lt g2).1 _).2 rfl
    have p3 := (gem_partner (gem_spokes_lt g3).1 _).2 rfl
    exact Relation.ReflTransGen.single ⟨i, .inl ⟨hi, u, w, v, _, _, h1, g2, g3, p2, p3, by rw [gem_side g2 p2, gem_side g3 p3]; exact h4⟩⟩
  have h01 := hturn 0 2 3 4 0 1 (by norm_num) (by norm_num) (by decide +kernel) (by decide +kernel) (by decide +kernel)
  have h12 := hturn 0 3 4 5 1 2 (by norm_num) (by norm_num) (by decide +kernel) (by decide +kernel) (by decide +kernel)
  have h23 := hturn 0 4 5 2 2 3 (by norm_num) (by norm_num) (by decide +kernel) (by decide +kernel) (by decide +kernel)
  have h30 := hturn 0 5 2 3 3 0 (by norm_num) (by norm_num) (by decide +kernel) (by decide +kernel) (by decide +kernel)
  have h45 := hturn 1 2 3 4 4 5 (by norm_num) (by norm_num) (by decide +kernel) (by decide +kernel) (by decide +kernel)
  have h56 := hturn 1 3 4 5 5 6 (by norm_num) (by norm_num) (by decide +kernel) (by decide +kernel) (by decide +kernel)
  have h67 := hturn 1 4 5 2 6 7 (by norm_num) (by norm_num) (by decide +kernel) (by decide +kernel) (by decide +kernel)
  have h74 := hturn 1 5 2 3 7 4 (by norm_num) (by norm_num) (by decide +kernel) (by decide +kernel) (by decide +kernel)
  -- across the edge at sphere 2
  have hfr : SheetFrame gemFans 2 2 (nb 2) (j0 2) (α 2) := hf 2 le_rfl (by show 2 < 6; norm_num) (gem_around le_rfl (by norm_num))
  have hadj := (gem_in le_rfl (by norm_num) hfr.1 hfr.2.1).1
  have hlk : ∀ j, j < 2 → FanLinked gemFans 2 (nb 2) j := fun j hj => (gem_linked le_rfl (by norm_num) _ _).2 (.inr ⟨hj, hadj⟩)
  have hne : α 2 0 ≠ α 2 1 := fun e => absurd (gem_angles le_rfl (by norm_num) hfr (hlk 0 (by norm_num)) (hlk 1 (by norm_num)) e) (by norm_num)
  have hall : ∀ x, FanLinked gemFans 2 (nb 2) x → x = 0 ∨ x = 1 := fun x hx => by have := (gem_in le_rfl (by norm_num) hfr.1 hx).2; omega
  have hnext : ∀ j k, j < 2 → k < 2 → j ≠ k → NextSheet gemFans 2 (nb 2) (α 2) j k := fun j k hj hk hjk => by
    refine ⟨hlk j hj, hlk k hk, ?_⟩
    have hx : ∀ x, FanLinked gemFans 2 (nb 2) x → x = j ∨ x = k := fun x hx => by have := hall x hx; omega
    rcases lt_trichotomy (α 2 j) (α 2 k) with h | h | h
    · refine .inl ⟨h, fun x hx' hh => ?_⟩
      rcases hx x hx' with rfl | rfl
      · exact lt_irrefl _ hh.1
      · exact lt_irrefl _ hh.2
    · exfalso
      have : (j = 0 ∧ k = 1) ∨ (j = 1 ∧ k = 0) := by omega
      rcases this with ⟨rfl, rfl⟩ | ⟨rfl, rfl⟩
      · exact hne h
      · exact hne h.symm
    · refine .inr ⟨fun x hx' => ?_, fun x hx' => ?_⟩ <;> rcases hx x hx' with rfl | rfl <;> first | exact le_rfl | exact h.le
  have hbelow : ∀ j s u w, OnSheet gemFans 2 2 (nb 2) j u w → gemSpokes 2 s u w = true → (s < 8 ↔ gemTurn 2 (nb 2) j = false) → SheetBelow gemFans 2 2 (nb 2) j s := fun j s u w ho hs h => by
    have g := (gem_spokes _ _ _ _).2 hs
    have p := (gem_partner (gem_spokes_lt g).1 _).2 rfl
    refine ⟨u, w, _, ho, g, p, ?_⟩
    rw [gem_side g p, gem_sheetSide hadj ho g, h]
    simp
  have habove : ∀ j s u w, OnSheet gemFans 2 2 (nb 2) j u w → gemSpokes 2 s u w = true → (s < 8 ↔ gemTurn 2 (nb 2) j = true) → SheetAbove gemFans 2 2 (nb 2) j s := fun j s u w ho hs h => by
    have g := (gem_spokes _ _ _ _).2 hs
    have p := (gem_partner (gem_spokes_lt g).1 _).2 rfl
    refine ⟨u, w, _, ho, g, p, ?_⟩
    rw [gem_side g p, gem_sheetSide hadj ho g, h]
    simp
  have hst : ∀ j, j < 2 → OnSheet gemFans 2 2 (nb 2) j (nb 2) j := fun j hj => ⟨0, rfl, rfl, hlk j hj⟩
  have hnb : nb 2 = 3 ∨ nb 2 = 5 := by unfold GemAdj at hadj; omega
  have hcross : ∃ s t, s < 4 ∧ 4 ≤ t ∧ t < 8 ∧ JoinedSeeds gemZ (gemSide 18) (gemSide 8) nb α s t ∧ JoinedSeeds gemZ (gemSide 18) (gemSide 8) nb α t s := by
    have hsec : ∃ s t, s < 4 ∧ 4 ≤ t ∧ t < 8 ∧ SameSector gemFans 2 2 (nb 2) (α 2) s t := by
      rcases hnb with e | e
      · refine ⟨0, 4, by norm_num, by norm_num, by norm_num, .inr ⟨0, 1, hnext 0 1 (by norm_num) (by norm_num) (by norm_num), .inl ⟨habove 0 0 _ _ (hst 0 (by norm_num)) ?_ ?_, hbelow 1 4 _ _ (hst 1 (by norm_num)) ?_ ?_⟩⟩⟩ <;>
          rw [e] <;> decide +kernel
      · refine ⟨3, 7, by norm_num, by norm_num, by norm_num, .inr ⟨1, 0, hnext 1 0 (by norm_num) (by norm_num) (by norm_num), .inr ⟨hbelow 0 3 _ _ (hst 0 (by norm_num)) ?_ ?_, habove 1 7 _ _ (hst 1 (by norm_num)) ?_ ?_⟩⟩⟩ <;>
          rw [e] <;> decide +kernel
    obtain ⟨s, t, a, b, c, h⟩ := hsec
    exact ⟨s, t, a, b, c, Relation.ReflTransGen.single ⟨2, .inr ⟨le_rfl, by show 2 < 6; norm_num, h⟩⟩, Relation.ReflTransGen.single ⟨2, .inr ⟨le_rfl, by show 2 < 6; norm_num, h.symm⟩⟩⟩
  have up0 : ∀ q, q < 4 → JoinedSeeds gemZ (gemSide 18) (gemSide 8) nb α q 0 ∧ JoinedSeeds gemZ (gemSide 18) (gemSide 8) nb α 0 q := fun q hq => by
    interval_cases q
    · exact ⟨.refl, .refl⟩
    · exact ⟨(h12.trans h23).trans h30, h01⟩
    · exact ⟨h23.trans h30, h01.trans h12⟩
    · exact ⟨h30, (h01.trans h12).trans h23⟩
  have lo4 : ∀ q, 4 ≤ q → q < 8 → JoinedSeeds gemZ (gemSide 18) (gemSide 8) nb α q 4 ∧ JoinedSeeds gemZ (gemSide 18) (gemSide 8) nb α 4 q := fun q h4 hq => by
    interval_cases q
    · exact ⟨.refl, .refl⟩
    · exact ⟨(h56.trans h67).trans h74, h45⟩
    · exact ⟨h67.trans h74, h45.trans h56⟩
    · exact ⟨h74, (h45.trans h56).trans h67⟩
  obtain ⟨a, b, ha, hb4, hb, hab, hba⟩ := hcross
  have h04 : JoinedSeeds gemZ (gemSide 18) (gemSide 8) nb α 0 4 := ((up0 a ha).2.trans hab).trans (lo4 b hb4 hb).1
  have h40 : JoinedSeeds gemZ (gemSide 18) (gemSide 8) nb α 4 0 := ((lo4 b hb4 hb).2.trans hba).trans (up0 a ha).1
  have to0 : JoinedSeeds gemZ (gemSide 18) (gemSide 8) nb α s 0 := by
    by_cases h : s < 4
    · exact (up0 s h).1
    · exact (lo4 s (by omega) hs).1.trans h40
  have from0 : JoinedSeeds gemZ (gemSide 18) (gemSide 8) nb α 0 t := by
    by_cases h : t < 4
    · exact (up0 t h).2
    · exact h04.trans (lo4 t (by omega) ht).2
  exact to0.trans from0

theorem gem_surface : EdgedSurface gemZ gemFace (gemSide 18) (gemSide 8) (1 / 4) := by
  refine ⟨⟨by norm_num, by norm_num, .inr ⟨⟨⟨rfl, by show 0 < 3; norm_num, BuiltTree.rebuilt _ false _ (gem_tree (k := 2) gemSphere (by norm_num)).choose_spec⟩, rfl, fun i _ => ?_⟩, fun i j _ _ => ?_⟩,
    .inr ⟨⟨⟨rfl, by show 0 < 3; norm_num, BuiltTree.rebuilt _ false _ (gem_tree (k := 4) (fun s => gemSphere (s + 2)) (by norm_num)).choose_spec⟩, rfl, fun i _ => ?_⟩, fun i j _ _ => ?_⟩, .inl rfl⟩, gem_stored, gem_noGrazing, gem_notThin,
    gem_watertight, gem_oneFan, ⟨⟨8, 0, 2, 3⟩, by rw [gem_pairs]; simp [gemPairs], by show 0 < 2; norm_num⟩, fun i h1 h2 _ => gem_edge h1 h2, fun nb j0 α hf => ⟨0, 8, by show 0 < 16; norm_num, by show 8 < 16; norm_num, fun h => ?_⟩⟩
  · show (0 : ℝ) ≤ 33
    norm_num
  · show (33 : ℝ) ≤ 33 + _
    have := euclid_nonneg 3 (gemZ.S.pts i) (gemZ.S.pts j)
    linarith
  · show (0 : ℝ) ≤ 33
    norm_num
  · show (33 : ℝ) ≤ 33 + _
    have := euclid_nonneg 3 (gemZ.E.pts i) (gemZ.E.pts j)
    linarith
  · have := gem_sides hf h
    omega

end VoroCrust
