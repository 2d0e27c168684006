import Verif.Props.Fans
import Verif.Props.Memory

/-! # C85: marks of the seeds around edge spheres -/

namespace VoroCrust

open Classical

/-! ## Specification -/

/-- The triangle `i`, `u`, `w` is number `n` of the sheet that starts with the triangle `i`, `nb`, `j`: each triangle shares a surface sphere (number less than `ns`) with the one before. -/
def SheetAt (F : FanEnv) (ns i nb j : Nat) : Nat → Nat → Nat → Prop
  | 0, u, w => u = nb ∧ w = j ∧ FanLinked F i nb j
  | n + 1, u, w => ∃ x, SheetAt F ns i nb j n x u ∧ u < ns ∧ w ≠ x ∧ FanLinked F i u w

/-- The triangle `i`, `u`, `w` is on the sheet that starts with the triangle `i`, `nb`, `j`; coming from `nb` one meets `u` before `w`. -/
def OnSheet (F : FanEnv) (ns i nb j u w : Nat) : Prop := ∃ n, SheetAt F ns i nb j n u w

/-- The triangles around the edge sphere `i` form sheets between `nb` and other edge or corner spheres: every edge at a surface sphere has two triangles, no sheet consists of one triangle or
comes back to `nb`, and there are no other triangles. -/
structure Sheaf (F : FanEnv) (ns i nb : Nat) : Prop where
  feature : ns ≤ nb
  inner : ∀ w, w < ns → TwoTriangles F i w
  first : ∀ j, FanLinked F i nb j → j < ns
  away : ∀ j u, ¬ OnSheet F ns i nb j u nb
  all : ∀ u w, FanLinked F i u w → ∃ j, OnSheet F ns i nb j u w ∨ OnSheet F ns i nb j w u

/-- Seed `s` belongs to a triangle of the sheet of `j`, on the side from which the triangles, oriented from `nb`, point away. -/
def SheetBelow (F : FanEnv) (ns i nb j s : Nat) : Prop := ∃ u w p, OnSheet F ns i nb j u w ∧ Spokes F i s u w ∧ Partner F s p ∧ PairBelow F i u w s p

/-- Seed `s` belongs to a triangle of the sheet of `j`, on the other side. -/
def SheetAbove (F : FanEnv) (ns i nb j s : Nat) : Prop := ∃ u w p, OnSheet F ns i nb j u w ∧ Spokes F i s u w ∧ Partner F s p ∧ ¬ PairBelow F i u w s p

/-- Of the sheets at `nb`, that of `k` is the next after that of `j` in the cyclic order of `θ`. -/
def NextSheet {α : Type} [LinearOrder α] (F : FanEnv) (i nb : Nat) (θ : Nat → α) (j k : Nat) : Prop :=
  FanLinked F i nb j ∧ FanLinked F i nb k ∧
    ((θ j < θ k ∧ ∀ x, FanLinked F i nb x → ¬ (θ j < θ x ∧ θ x < θ k)) ∨ ((∀ x, FanLinked F i nb x → θ x ≤ θ j) ∧ ∀ x, FanLinked F i nb x → θ k ≤ θ x))

/-- The seeds `s` and `t` around `i` lie in the same sector between two consecutive sheets: on the same side of one sheet, or one above a sheet and the other below the next one. -/
def SameSector {α : Type} [LinearOrder α] (F : FanEnv) (ns i nb : Nat) (θ : Nat → α) (s t : Nat) : Prop :=
  (∃ j, (SheetBelow F ns i nb j s ∧ SheetBelow F ns i nb j t) ∨ (SheetAbove F ns i nb j s ∧ SheetAbove F ns i nb j t)) ∨
    ∃ j k, NextSheet F i nb θ j k ∧ ((SheetAbove F ns i nb j s ∧ SheetBelow F ns i nb k t) ∨ (SheetBelow F ns i nb k s ∧ SheetAbove F ns i nb j t))

/-! ## Sheets -/

section sheets
variable {F : FanEnv} {ns i nb : Nat}

theorem SheetAt.linked {j n u w : Nat} (h : SheetAt F ns i nb j n u w) : FanLinked F i u w := by
  cases n with
  | zero => obtain ⟨rfl, rfl, h⟩ := h; exact h
  | succ n => obtain ⟨x, -, -, -, h⟩ := h; exact h

/-- A surface sphere has exactly the two neighbours met along a sheet. -/
theorem TwoTriangles.only {w u v x : Nat} (h : TwoTriangles F i w) (hu : FanLinked F i u w) (hv : FanLinked F i w v) (huv : v ≠ u) (hx : FanLinked F i w x) : x = u ∨ x = v := by
  obtain ⟨z, -, -, hz⟩ := h u hu
  rcases hz v hv with e | e
  · exact absurd e huv
  · rcases hz x hx with e' | e'
    · exact Or.inl e'
    · exact Or.inr (e'.trans e.symm)

theorem SheetAt.unique (h : Sheaf F ns i nb) {j j' : Nat} : ∀ {n n' u w : Nat}, SheetAt F ns i nb j n u w → SheetAt F ns i nb j' n' u w → j = j' ∧ n = n'
  | 0, 0, u, w, ⟨_, hw, _⟩, ⟨_, hw', _⟩ => ⟨hw.symm.trans hw', rfl⟩
  | 0, n' + 1, u, w, ⟨hu, _, _⟩, ⟨_, _, h2, _⟩ => by have := h.feature; omega
  | n + 1, 0, u, w, ⟨_, _, h2, _⟩, ⟨hu, _, _⟩ => by have := h.feature; omega
  | n + 1, n' + 1, u, w, ⟨x, h1, h2, h3, h4⟩, ⟨y, k1, k2, k3, k4⟩ => by
    have : y = x := by
      rcases (h.inner u h2).only h1.linked h4 h3 k1.linked.symm with e | e
      · exact e
      · exact absurd e.symm k3
    subst this
    obtain ⟨e1, e2⟩ := SheetAt.unique h h1 k1
    exact ⟨e1, by rw [e2]⟩

theorem SheetAt.one_way (h : Sheaf F ns i nb) {j j' n : Nat} : ∀ {n' u w : Nat}, SheetAt F ns i nb j n u w → ¬ SheetAt F ns i nb j' n' w u := by
  induction n with
  | zero =>
    rintro n' u w ⟨rfl, rfl, hl⟩ h'
    exact h.away j' w ⟨n', h'⟩
  | succ n ih =>
    rintro n' u w ⟨x, h1, h2, h3, h4⟩ h'
    exact ih h1 (n' := n' + 1) ⟨w, h', h2, h3.symm, h1.linked.symm⟩

theorem SheetAt.forward (h : Sheaf F ns i nb) {j : Nat} : ∀ {n u w u' w' : Nat}, SheetAt F ns i nb j n u w → SheetAt F ns i nb j n u' w' → u = u' ∧ w = w'
  | 0, u, w, u', w', ⟨h1, h2, _⟩, ⟨h3, h4, _⟩ => ⟨h1.trans h3.symm, h2.trans h4.symm⟩
  | n + 1, u, w, u', w', ⟨x, h1, h2, h3, h4⟩, ⟨y, k1, k2, k3, k4⟩ => by
    obtain ⟨rfl, rfl⟩ := SheetAt.forward h h1 k1
    refine ⟨rfl, ?_⟩
    rcases (h.inner u h2).only h1.linked h4 h3 k4 with e | e
    · exact absurd e k3
    · exact e.symm

theorem SheetAt.earlier {j : Nat} : ∀ {n m u w : Nat}, SheetAt F ns i nb j n u w → m ≤ n → ∃ x y, SheetAt F ns i nb j m x y
  | 0, m, u, w, h, hm => ⟨u, w, by rwa [show m = 0 by omega]⟩
  | n + 1, m, u, w, h, hm => by
    by_cases e : m = n + 1
    · exact ⟨u, w, by rwa [e]⟩
    · obtain ⟨x, h1, -⟩ := h
      exact h1.earlier (by omega)

theorem SheetAt.start {j n u w : Nat} (h : SheetAt F ns i nb j n u w) : FanLinked F i nb j := by
  obtain ⟨x, y, -, -, h⟩ := h.earlier (Nat.zero_le n)
  exact h

/-! ## Walking along a sheet -/

/-- The walk along a sheet, from triangle number `n` on. -/
theorem sheet_walk {l : List Nat} (h : PairsAround F i l) (hS : Sheaf F ns i nb) {a b : Nat} (ha : a ≠ 0) (hb : b ≠ 0) {j : Nat} :
    ∀ (f n u w : Nat) (E : List (Nat × Nat × Nat × Nat)) (c : Nat → Nat), SheetAt F ns i nb j n u w → w < ns → Marked F i l E c →
      (u, w, a, b) ∈ E → (∀ e ∈ E, ∃ k m, SheetAt F ns i nb k m e.1 e.2.1 ∧ (k = j → m ≤ n)) → unmarked l c < f →
      ∃ E' c', walkLoop F i l (fun k => decide (ns ≤ k)) a b f w c = some (some c') ∧ Marked F i l (E' ++ E) c' ∧
        (∀ e ∈ E', e.2.2 = (a, b) ∧ ∃ m, n < m ∧ SheetAt F ns i nb j m e.1 e.2.1) ∧
        (∀ m x y, n < m → SheetAt F ns i nb j m x y → (x, y, a, b) ∈ E') ∧ ∀ x, x ∉ l → c' x = c x
  | 0, _, _, _, _, _, _, _, _, _, _, hf => by omega
  | f + 1, n, u, w, E, c, hat, hw, hM, hmem, hE, hf => by
    obtain ⟨v, hvu, hwv, hv⟩ := hS.inner w hw u hat.linked
    have hat' : SheetAt F ns i nb j (n + 1) w v := ⟨u, hat, hw, hvu, hwv⟩
    have hfresh : ∀ e ∈ E, ¬ ((e.1 = w ∧ e.2.1 = v) ∨ (e.1 = v ∧ e.2.1 = w)) := by
      rintro e he (⟨x, y⟩ | ⟨x, y⟩)
      · obtain ⟨k, m, hk, hm⟩ := hE e he
        rw [x, y] at hk
        obtain ⟨e1, e2⟩ := hk.unique hS hat'
        have := hm e1
        omega
      · obtain ⟨k, m, hk, hm⟩ := hE e he
        rw [x, y] at hk
        exact hk.one_way hS hat'
    obtain ⟨c', e1, hM', ho, hlt⟩ := walk_step h hM ha hb hwv hfresh (fun x hx => by
      rcases hv x hx with e | e
      · exact Or.inr ⟨(u, w, a, b), hmem, Or.inr ⟨e.symm, rfl⟩⟩
      · exact Or.inl e) (fun k => decide (ns ≤ k)) f
    by_cases hstop : ns ≤ v
    · refine ⟨[(w, v, a, b)], c', by rw [e1]; simp [hstop], hM', ?_, ?_, ho⟩
      · intro e he
        simp only [List.mem_singleton] at he
        subst he
        exact ⟨rfl, n + 1, by omega, hat'⟩
      · intro m x y hm hx
        by_cases hmn : m = n + 1
        · subst hmn
          obtain ⟨rfl, rfl⟩ := hx.forward hS hat'
          simp
        · exfalso
          obtain ⟨x', y', z, hz, hz', -⟩ := hx.earlier (m := n + 2) (by omega)
          obtain ⟨-, rfl⟩ := hz.forward hS hat'
          omega
    · obtain ⟨E', c2, e2, hM2, q1, q2, q3⟩ := sheet_walk h hS ha hb f (n + 1) w v ((w, v, a, b) :: E) c' hat' (by omega) hM' (by simp) (by
        intro e he
        rcases List.mem_cons.1 he with rfl | he
        · exact ⟨j, n + 1, hat', fun _ => le_rfl⟩
        · obtain ⟨k, m, hk, hm⟩ := hE e he
          exact ⟨k, m, hk, fun e => (hm e).trans (by omega)⟩) (by omega)
      refine ⟨E' ++ [(w, v, a, b)], c2, by rw [e1, if_neg (by simpa using hstop)]; exact e2, by simpa using hM2, ?_, ?_, fun x hx => (q3 x hx).trans (ho x hx)⟩
      · intro e he
        rcases List.mem_append.1 he with he | he
        · obtain ⟨x, m, y, z⟩ := q1 e he
          exact ⟨x, m, by omega, z⟩
        · simp only [List.mem_singleton] at he
          subst he
          exact ⟨rfl, n + 1, by omega, hat'⟩
      · intro m x y hm hx
        by_cases hmn : m = n + 1
        · subst hmn
          obtain ⟨rfl, rfl⟩ := hx.forward hS hat'
          simp
        · exact List.mem_append_left _ (q2 m x y (by omega) hx)

theorem markFirst_spec {j a b : Nat} {c : Nat → Nat} (hnj : nb ≠ j) : ∀ l : List Nat, (∀ s ∈ l, ∃ u v, Spokes F i s u v) → (∀ s ∈ l, ∀ u v, Spokes F i s u v → u ≠ v) → (∃ s ∈ l, c s = 0 ∧ Spokes F i s nb j) →
    ∃ s p, s ∈ l ∧ c s = 0 ∧ Spokes F i s nb j ∧ Partner F s p ∧ markFirst F i nb j a b c l = (markPair F i s p nb j a b c).map fun c' => (j, c')
  | [], _, _, ⟨s, hs, _⟩ => by simp at hs
  | s :: l, h, hd, hex => by
    obtain ⟨u, v, hs⟩ := h s (by simp)
    obtain ⟨p, u, v, e⟩ : ∃ p u v, turned F i s = some (p, u, v) := by
      obtain ⟨p, e | e⟩ := turned_of_spokes hs <;> exact ⟨_, _, _, e⟩
    obtain ⟨h1, h2⟩ := turned_some e
    have hrec : (∃ t ∈ l, c t = 0 ∧ Spokes F i t nb j) → markFirst F i nb j a b c (s :: l) = markFirst F i nb j a b c l →
        ∃ s' p, s' ∈ s :: l ∧ c s' = 0 ∧ Spokes F i s' nb j ∧ Partner F s' p ∧ markFirst F i nb j a b c (s :: l) = (markPair F i s' p nb j a b c).map fun c' => (j, c') := by
      intro hx he
      obtain ⟨t, q, k1, k2⟩ := markFirst_spec hnj l (fun t ht => h t (by simp [ht])) (fun t ht => hd t (by simp [ht])) hx
      exact ⟨t, q, by simp [k1], by rw [he]; exact k2⟩
    by_cases hc : c s ≠ 0
    · refine hrec ?_ (by rw [markFirst, if_pos hc])
      obtain ⟨t, ht, hz, hx⟩ := hex
      rcases List.mem_cons.1 ht with rfl | ht
      · exact absurd hz hc
      · exact ⟨t, ht, hz, hx⟩
    · by_cases hskip : (u ≠ nb ∧ u ≠ j) ∨ (v ≠ nb ∧ v ≠ j)
      · refine hrec ?_ (by rw [markFirst, if_neg hc, e]; simp only; rw [if_pos hskip])
        obtain ⟨t, ht, hz, hx⟩ := hex
        rcases List.mem_cons.1 ht with rfl | ht
        · exfalso
          rcases h1.det hx with ⟨y, z⟩ | ⟨y, z⟩
          · rcases hskip with k | k
            · exact k.1 y.symm
            · exact k.2 z.symm
          · rcases hskip with k | k
            · exact k.2 z.symm
            · exact k.1 y.symm
        · exact ⟨t, ht, hz, hx⟩
      · have huv := hd s (by simp) u v h1
        have hcase : (u = nb ∧ v = j) ∨ (u = j ∧ v = nb) := by
          by_cases a1 : u = nb <;> by_cases a2 : v = nb <;> by_cases a3 : u = j <;> by_cases a4 : v = j <;> simp_all
        have hn := not_or.1 hskip
        refine ⟨s, p, by simp, not_not.1 hc, ?_, h2, ?_⟩
        · rcases hcase with ⟨rfl, rfl⟩ | ⟨rfl, rfl⟩
          · exact h1
          · exact h1.symm
        · rw [markFirst, if_neg hc, e]
          simp only
          rw [if_neg hskip]
          rcases hcase with ⟨rfl, rfl⟩ | ⟨rfl, rfl⟩
          · rw [if_neg (by simp), if_neg (by simp)]
            cases markPair F i s p u v a b c <;> rfl
          · rw [if_pos (Ne.symm hnj), if_pos (Ne.symm hnj)]
            cases markPair F i s p v u a b c <;> rfl

/-- The mark above sheet number `k` of `n`. -/
def wrapMark (n k : Nat) : Nat := if k + 2 > n then 1 else k + 2

theorem wrapMark_ne (n k : Nat) : wrapMark n k ≠ 0 := by unfold wrapMark; split_ifs <;> omega

/-- The edges walked along are those of the first `q` sheets. -/
def SheetEdges (F : FanEnv) (ns i nb : Nat) (J : Nat → Nat) (n q : Nat) (E : List (Nat × Nat × Nat × Nat)) : Prop :=
  (∀ e ∈ E, ∃ k, k < q ∧ OnSheet F ns i nb (J k) e.1 e.2.1 ∧ e.2.2 = (k + 1, wrapMark n k)) ∧
    ∀ k, k < q → ∀ u w, OnSheet F ns i nb (J k) u w → (u, w, k + 1, wrapMark n k) ∈ E

theorem markSheets_spec {l : List Nat} (h : PairsAround F i l) (hS : Sheaf F ns i nb) {J : Nat → Nat} {n : Nat} (hJ : ∀ k, k < n → FanLinked F i nb (J k))
    (hinj : ∀ k m, k < n → m < n → J k = J m → k = m) : ∀ (m q : Nat) (c : Nat → Nat) (E : List (Nat × Nat × Nat × Nat)), q + m ≤ n → Marked F i l E c →
      SheetEdges F ns i nb J n q E →
      ∃ E' c', markSheets F ns i nb l J n (l.length + 1) m q c = some (some c') ∧ Marked F i l E' c' ∧ SheetEdges F ns i nb J n (q + m) E' ∧ ∀ x, x ∉ l → c' x = c x
  | 0, q, c, E, _, hM, hE => ⟨E, c, rfl, hM, hE, fun _ _ => rfl⟩
  | m + 1, q, c, E, hq, hM, ⟨hE1, hE2⟩ => by
    have hlink := hJ q (by omega)
    have hjs := hS.first _ hlink
    have hat : SheetAt F ns i nb (J q) 0 nb (J q) := ⟨rfl, rfl, hlink⟩
    have hnj : nb ≠ J q := fun e => by have := hS.feature; omega
    have hoff : ∀ e ∈ E, ∀ n' u w, SheetAt F ns i nb (J q) n' u w → ¬ ((e.1 = u ∧ e.2.1 = w) ∨ (e.1 = w ∧ e.2.1 = u)) := by
      intro e he n' u w hat hx
      obtain ⟨k, hk, ⟨n'', hon⟩, -⟩ := hE1 e he
      rcases hx with ⟨x, y⟩ | ⟨x, y⟩
      · rw [x, y] at hon
        have := hinj k q (by omega) (by omega) (hon.unique hS hat).1
        omega
      · rw [x, y] at hon
        exact hon.one_way hS hat
    have hoff' : ∀ s ∈ l, Spokes F i s nb (J q) → ∀ e ∈ E, ¬ Spokes F i s e.1 e.2.1 := fun s _ hs e he hx => hoff e he 0 _ _ hat (by
      rcases hs.det hx with ⟨x, y⟩ | ⟨x, y⟩
      · exact Or.inl ⟨x, y⟩
      · exact Or.inr ⟨x, y⟩)
    obtain ⟨s0, hs0⟩ := hlink
    have hs0l := h.all _ _ _ hs0
    obtain ⟨s, p, hs, hz, hsp, hp, e1⟩ := markFirst_spec (F := F) (i := i) (a := q + 1) (b := wrapMark n q) (c := c) hnj l h.around h.distinct
      ⟨s0, hs0l, (hM.zero s0 hs0l).2 (hoff' s0 hs0l hs0), hs0⟩
    obtain ⟨c1, e2, hM1, ho1⟩ := markPair_spec h hM (a := q + 1) (b := wrapMark n q) (by omega) (wrapMark_ne n q) hs hp hsp (hoff' s hs hsp)
    obtain ⟨E', c2, e3, hM2, q1, q2, ho2⟩ := sheet_walk h hS (a := q + 1) (b := wrapMark n q) (by omega) (wrapMark_ne n q) (l.length + 1) 0 nb (J q)
      ((nb, J q, q + 1, wrapMark n q) :: E) c1 hat hjs hM1 (by simp) (by
        intro e he
        rcases List.mem_cons.1 he with rfl | he
        · exact ⟨J q, 0, hat, fun _ => le_rfl⟩
        · obtain ⟨k, hk, ⟨n', hon⟩, -⟩ := hE1 e he
          refine ⟨J k, n', hon, fun e => ?_⟩
          have := hinj k q (by omega) (by omega) e
          omega) (by have := unmarked_le l c1; omega)
    obtain ⟨E'', c3, e4, hM3, hE3, ho3⟩ := markSheets_spec h hS hJ hinj m (q + 1) c2 (E' ++ (nb, J q, q + 1, wrapMark n q) :: E) (by omega) hM2 ⟨by
        intro e he
        rcases List.mem_append.1 he with he | he
        · obtain ⟨x, m', -, y⟩ := q1 e he
          exact ⟨q, by omega, ⟨m', y⟩, x⟩
        · rcases List.mem_cons.1 he with rfl | he
          · exact ⟨q, by omega, ⟨0, hat⟩, rfl⟩
          · obtain ⟨k, hk, x⟩ := hE1 e he
            exact ⟨k, by omega, x⟩, by
        rintro k hk u w ⟨n', hon⟩
        by_cases hkq : k = q
        · subst hkq
          cases n' with
          | zero => obtain ⟨rfl, rfl, -⟩ := hon; simp
          | succ n' => exact List.mem_append_left _ (q2 (n' + 1) u w (by omega) hon)
        · exact List.mem_append_right _ (List.mem_cons_of_mem _ (hE2 k (by omega) u w ⟨n', hon⟩))⟩
    refine ⟨E'', c3, ?_, hM3, by rwa [show q + (m + 1) = q + 1 + m by omega], fun x hx => (ho3 x hx).trans ((ho2 x hx).trans (ho1 x hx))⟩
    rw [markSheets]
    change (match markFirst F i nb (J q) (q + 1) (wrapMark n q) c l with
      | none => none
      | some (j, c) =>
        match walkLoop F i l (fun k => decide (ns ≤ k)) (q + 1) (wrapMark n q) (l.length + 1) j c with
        | none => none
        | some none => some none
        | some (some c) => markSheets F ns i nb l J n (l.length + 1) m (q + 1) c) = _
    rw [e1, e2]
    simp only [Option.map_some]
    rw [e3]
    exact e4

/-! ## The sheets at a neighbour -/

theorem featureNeighbor_spec : ∀ l : List Nat, (∀ s ∈ l, ∃ u v, Spokes F i s u v) →
    ∃ x, featureNeighbor F ns i l = some x ∧ ((ns ≤ x ∧ ∃ s ∈ l, ∃ v, Spokes F i s x v) ∨ (x = i ∧ ∀ s ∈ l, ∀ u v, Spokes F i s u v → u < ns ∧ v < ns))
  | [], _ => ⟨i, rfl, Or.inr ⟨rfl, by simp⟩⟩
  | s :: l, h => by
    obtain ⟨u, v, hs⟩ := h s (by simp)
    obtain ⟨p, u, v, e⟩ : ∃ p u v, turned F i s = some (p, u, v) := by
      obtain ⟨p, e | e⟩ := turned_of_spokes hs <;> exact ⟨_, _, _, e⟩
    obtain ⟨h1, h2⟩ := turned_some e
    unfold featureNeighbor
    rw [e]
    simp only
    by_cases hu : ns ≤ u
    · rw [if_pos hu]
      exact ⟨u, rfl, Or.inl ⟨hu, s, by simp, v, h1⟩⟩
    · rw [if_neg hu]
      by_cases hv : ns ≤ v
      · rw [if_pos hv]
        exact ⟨v, rfl, Or.inl ⟨hv, s, by simp, u, h1.symm⟩⟩
      · rw [if_neg hv]
        obtain ⟨x, ex, hx⟩ := featureNeighbor_spec l fun t ht => h t (by simp [ht])
        refine ⟨x, ex, ?_⟩
        rcases hx with ⟨a, t, ht, b⟩ | ⟨a, b⟩
        · exact Or.inl ⟨a, t, by simp [ht], b⟩
        · refine Or.inr ⟨a, fun t ht y z hyz => ?_⟩
          rcases List.mem_cons.1 ht with rfl | ht
          · rcases h1.det hyz with ⟨rfl, rfl⟩ | ⟨rfl, rfl⟩ <;> omega
          · exact b t ht y z hyz

theorem countSheets_spec : ∀ l : List Nat, (∀ s ∈ l, ∃ u v, Spokes F i s u v) →
    countSheets F i nb l = some (l.countP fun s => decide (∃ v, Spokes F i s nb v))
  | [], _ => rfl
  | s :: l, h => by
    obtain ⟨u, v, hs⟩ := h s (by simp)
    obtain ⟨p, u, v, e⟩ : ∃ p u v, turned F i s = some (p, u, v) := by
      obtain ⟨p, e | e⟩ := turned_of_spokes hs <;> exact ⟨_, _, _, e⟩
    obtain ⟨h1, h2⟩ := turned_some e
    unfold countSheets
    rw [e, countSheets_spec l fun t ht => h t (by simp [ht])]
    simp only
    rw [List.countP_cons]
    have hiff : (u = nb ∨ v = nb) ↔ ∃ v, Spokes F i s nb v := by
      constructor
      · rintro (rfl | rfl)
        · exact ⟨v, h1⟩
        · exact ⟨u, h1.symm⟩
      · rintro ⟨x, hx⟩
        rcases h1.det hx with ⟨a, -⟩ | ⟨a, -⟩
        · exact Or.inl a.symm
        · exact Or.inr a.symm
    by_cases hc : u = nb ∨ v = nb
    · rw [if_pos hc, if_pos (by simpa using hiff.1 hc)]
    · rw [if_neg hc, if_neg (by simpa using fun x => hc (hiff.2 x))]; rfl

theorem sheets_count {l : List Nat} (h : PairsAround F i l) {L : List Nat} (hL : L.Nodup) (hl : ∀ j ∈ L, FanLinked F i nb j) :
    2 * L.length ≤ l.countP fun s => decide (∃ v, Spokes F i s nb v) := by
  have hcard : (L.toFinset.biUnion fun j => l.toFinset.filter fun s => Spokes F i s nb j).card ≤ l.countP fun s => decide (∃ v, Spokes F i s nb v) := by
    rw [List.countP_eq_length_filter, ← List.toFinset_card_of_nodup (h.nodup.filter _)]
    refine Finset.card_le_card fun s hs => ?_
    simp only [Finset.mem_biUnion, Finset.mem_filter, List.mem_toFinset] at hs
    obtain ⟨j, -, hs, hj⟩ := hs
    simp only [List.mem_toFinset, List.mem_filter, decide_eq_true_eq]
    exact ⟨hs, j, hj⟩
  refine le_trans ?_ hcard
  rw [Finset.card_biUnion]
  · rw [← List.toFinset_card_of_nodup hL, mul_comm, ← smul_eq_mul, ← Finset.sum_const]
    refine Finset.sum_le_sum fun j hj => ?_
    obtain ⟨s, hs⟩ := hl j (List.mem_toFinset.1 hj)
    have hsl := h.all _ _ _ hs
    obtain ⟨p, hp, hne, -, -, hsame⟩ := h.partner s hsl
    rw [show (2 : Nat) = ({s, p} : Finset Nat).card by rw [Finset.card_pair hne.symm]]
    refine Finset.card_le_card fun x hx => ?_
    simp only [Finset.mem_insert, Finset.mem_singleton] at hx
    simp only [Finset.mem_filter, List.mem_toFinset]
    rcases hx with rfl | rfl
    · exact ⟨hsl, hs⟩
    · exact ⟨hp, hsame _ _ hs⟩
  · intro j _ k _ hjk
    rw [Function.onFun, Finset.disjoint_left]
    intro s hs hs'
    simp only [Finset.mem_filter, List.mem_toFinset] at hs hs'
    rcases hs.2.det hs'.2 with ⟨-, e⟩ | ⟨e, e'⟩
    · exact hjk e.symm
    · exact hjk (e.symm.trans e'.symm)

theorem firstLayer_spec {l0 : List Nat} (h : PairsAround F i l0) {cap : Nat} (hcap : cap = (l0.countP fun s => decide (∃ v, Spokes F i s nb v)) / 2) :
    ∀ (l js : List Nat), (∀ s ∈ l, s ∈ l0) → js.Nodup → (∀ j ∈ js, FanLinked F i nb j) →
      ∃ js', firstLayer F i nb cap l js = some js' ∧ js'.Nodup ∧ (∀ j ∈ js', FanLinked F i nb j) ∧ (∀ j ∈ js, j ∈ js') ∧ ∀ s ∈ l, ∀ j, Spokes F i s nb j → j ∈ js'
  | [], js, _, hn, hj => ⟨js, rfl, hn, hj, fun _ h => h, by simp⟩
  | s :: l, js, hl, hn, hj => by
    have hsl := hl s (by simp)
    obtain ⟨u, v, hs⟩ := h.around s hsl
    obtain ⟨p, u, v, e⟩ : ∃ p u v, turned F i s = some (p, u, v) := by
      obtain ⟨p, e | e⟩ := turned_of_spokes hs <;> exact ⟨_, _, _, e⟩
    obtain ⟨h1, h2⟩ := turned_some e
    have huv := h.distinct s hsl u v h1
    have hl' : ∀ t ∈ l, t ∈ l0 := fun t ht => hl t (by simp [ht])
    unfold firstLayer
    rw [e]
    simp only
    by_cases hno : u ≠ nb ∧ v ≠ nb
    · rw [if_pos hno]
      obtain ⟨js', e1, q1, q2, q3, q4⟩ := firstLayer_spec h hcap l js hl' hn hj
      refine ⟨js', e1, q1, q2, q3, fun t ht j hj => ?_⟩
      rcases List.mem_cons.1 ht with rfl | ht
      · exfalso
        rcases h1.det hj with ⟨x, -⟩ | ⟨x, -⟩
        · exact hno.1 x.symm
        · exact hno.2 x.symm
      · exact q4 t ht j hj
    · rw [if_neg hno]
      set k := if u ≠ nb then u else v with hk
      have hsk : Spokes F i s nb k := by
        by_cases hu : u = nb
        · rw [hk, if_neg (by simpa using hu), ← hu]; exact h1
        · have hv : v = nb := by by_contra hv; exact hno ⟨hu, hv⟩
          rw [hk, if_pos hu, ← hv]; exact h1.symm
      have honly : ∀ j, Spokes F i s nb j → j = k := fun j hj => by
        rcases hsk.det hj with ⟨-, x⟩ | ⟨x, y⟩
        · exact x
        · exact y.trans x
      by_cases hm : k ∈ js
      · rw [if_pos hm]
        obtain ⟨js', e1, q1, q2, q3, q4⟩ := firstLayer_spec h hcap l js hl' hn hj
        refine ⟨js', e1, q1, q2, q3, fun t ht j hj => ?_⟩
        rcases List.mem_cons.1 ht with rfl | ht
        · rw [honly j hj]; exact q3 k hm
        · exact q4 t ht j hj
      · rw [if_neg hm]
        have hn' : (js ++ [k]).Nodup := by
          rw [List.nodup_append]
          exact ⟨hn, by simp, fun a ha b hb => by simp at hb; rintro rfl; exact hm (hb ▸ ha)⟩
        have hj' : ∀ j ∈ js ++ [k], FanLinked F i nb j := by
          intro j hjm
          rcases List.mem_append.1 hjm with x | x
          · exact hj j x
          · simp at x; rw [x]; exact ⟨s, hsk⟩
        have hlen : js.length < cap := by
          have := sheets_count h hn' hj'
          simp only [List.length_append, List.length_singleton] at this
          omega
        rw [if_pos hlen]
        obtain ⟨js', e1, q1, q2, q3, q4⟩ := firstLayer_spec h hcap l (js ++ [k]) hl' hn' hj'
        refine ⟨js', e1, q1, q2, fun j hj => q3 j (by simp [hj]), fun t ht j hj => ?_⟩
        rcases List.mem_cons.1 ht with rfl | ht
        · rw [honly j hj]; exact q3 k (by simp)
        · exact q4 t ht j hj

/-! ## The order of the sheets -/

/-- `theta` of the sheet of `j`, measured from that of `j0` (the value the code sorts by). -/
noncomputable def codeAngle (F : FanEnv) (i nb j0 j : Nat) : WithTop ℝ :=
  match edgeFrame (F.sphere i) (F.sphere nb) (F.sphere j0) with
  | some (e2, e3) => pointAngle (dot3 (fun d => F.sphere j d - F.sphere i d) e2) (dot3 (fun d => F.sphere j d - F.sphere i d) e3)
  | none => ⊤

theorem zero_of_dot3 {v : V3} (h : dot3 v v = 0) (d : Fin 3) : v d = 0 := by
  unfold dot3 at h
  have q0 := mul_self_nonneg (v 0)
  have q1 := mul_self_nonneg (v 1)
  have q2 := mul_self_nonneg (v 2)
  fin_cases d
  · exact mul_self_eq_zero.1 (by simp only [Fin.zero_eta]; linarith)
  · exact mul_self_eq_zero.1 (by simp only [Fin.mk_one]; linarith)
  · exact mul_self_eq_zero.1 (by simp only [Fin.reduceFinMk]; linarith)

theorem edgeFrame_some {x y z : V3} (h : ∃ d, areaVec ![x, y, z] d ≠ 0) : edgeFrame x y z = some
    (let a : V3 := fun d => y d - x d
     let e1 : V3 := fun d => a d / Real.sqrt (dot3 a a)
     let w : V3 := fun d => z d - x d
     let b : V3 := fun d => w d - dot3 w e1 * e1 d
     let e2 : V3 := fun d => b d / Real.sqrt (dot3 b b)
     (e2, cross3 e1 e2)) := by
  unfold edgeFrame
  simp only
  rw [if_neg]
  rintro (h0 | h0)
  · have ha : ∀ d, y d - x d = 0 := zero_of_dot3 (v := fun d => y d - x d) ((Real.sqrt_eq_zero (dot3_self_nonneg _)).1 h0)
    obtain ⟨d, hd⟩ := h
    apply hd
    unfold areaVec cross3
    have h0 := ha 0
    have h1 := ha 1
    have h2 := ha 2
    fin_cases d <;> simp [h0, h1, h2]
  · set a : V3 := fun d => y d - x d with haa
    set w : V3 := fun d => z d - x d with hww
    set e1 : V3 := fun d => a d / Real.sqrt (dot3 a a) with he1
    have hb : ∀ d, w d - dot3 w e1 * e1 d = 0 := zero_of_dot3 ((Real.sqrt_eq_zero (dot3_self_nonneg _)).1 h0)
    obtain ⟨d, hd⟩ := h
    apply hd
    have hw : ∀ d, w d = (dot3 w e1 / Real.sqrt (dot3 a a)) * a d := by
      intro d
      have := hb d
      have e : e1 d = a d / Real.sqrt (dot3 a a) := rfl
      rw [e] at this
      linarith [this, mul_div_assoc (dot3 w e1) (a d) (Real.sqrt (dot3 a a)), div_mul_eq_mul_div (dot3 w e1) (Real.sqrt (dot3 a a)) (a d)]
    have e : areaVec ![x, y, z] = cross3 a w := rfl
    rw [e]
    unfold cross3
    have h0 := hw 0
    have h1 := hw 1
    have h2 := hw 2
    generalize dot3 w e1 / Real.sqrt (dot3 a a) = μ at h0 h1 h2
    fin_cases d <;> simp [h0, h1, h2] <;> ring

theorem topLt_strictWeak : StrictWeak (fun a b : WithTop ℝ => decide (a < b)) where
  asymm a b h := by simp only [decide_eq_true_eq, decide_eq_false_iff_not, not_lt] at *; exact h.le
  negTrans a b c h1 h2 := by simp only [decide_eq_false_iff_not, not_lt] at *; exact h1.trans h2

theorem sortSheets_spec {j0 : Nat} {js : List Nat} (hn : (j0 :: js).Nodup) (h : ∃ d, areaVec ![F.sphere i, F.sphere nb, F.sphere j0] d ≠ 0) :
    ∃ J, sortSheets F i nb (j0 :: js) = some J ∧ (∀ k, k < (j0 :: js).length → J k ∈ j0 :: js) ∧ (∀ j ∈ j0 :: js, ∃ k, k < (j0 :: js).length ∧ J k = j) ∧
      (∀ k m, k < (j0 :: js).length → m < (j0 :: js).length → J k = J m → k = m) ∧
      ∀ a b, a < b → b < (j0 :: js).length → codeAngle F i nb j0 (J a) ≤ codeAngle F i nb j0 (J b) := by
  set L := j0 :: js with hL
  have hpos : 0 < L.length := by simp [hL]
  obtain ⟨e2, e3, he⟩ : ∃ e2 e3, edgeFrame (F.sphere i) (F.sphere nb) (F.sphere j0) = some (e2, e3) := ⟨_, _, edgeFrame_some h⟩
  have hang : ∀ j, codeAngle F i nb j0 j = pointAngle (dot3 (fun d => F.sphere j d - F.sphere i d) e2) (dot3 (fun d => F.sphere j d - F.sphere i d) e3) := fun j => by
    unfold codeAngle; rw [he]
  obtain ⟨x', J, e, hasc, σ, hσ, hx, hJ⟩ := C03_companion_lockstep (fun a b : WithTop ℝ => decide (a < b)) topLt_strictWeak L.length
    (fun m => codeAngle F i nb j0 (L.getD m 0)) (fun m => L.getD m 0) 0 (L.length - 1) (by omega) (by omega)
  have key : ∀ k, k < L.length → σ k < L.length := by
    intro k hk
    by_contra hc
    have h1 : σ (σ k) = σ k := hσ (σ k) (Or.inr (by omega))
    have := σ.injective h1
    omega
  have key' : ∀ k, k < L.length → ∃ m, m < L.length ∧ σ m = k := by
    intro k hk
    refine ⟨σ.symm k, ?_, by simp⟩
    by_contra hc
    have h1 : σ (σ.symm k) = σ.symm k := hσ (σ.symm k) (Or.inr (by omega))
    rw [Equiv.apply_symm_apply] at h1
    omega
  refine ⟨J, ?_, fun k hk => ?_, fun j hj => ?_, fun k m hk hm hkm => ?_, fun a b hab hb => ?_⟩
  · rw [hL, sortSheets]
    rw [he]
    simp only
    rw [← hL]
    have : (fun m => pointAngle (dot3 (fun d => F.sphere (L.getD m 0) d - F.sphere i d) e2) (dot3 (fun d => F.sphere (L.getD m 0) d - F.sphere i d) e3)) =
        fun m => codeAngle F i nb j0 (L.getD m 0) := funext fun m => (hang _).symm
    rw [this, e]; rfl
  · rw [hJ k]
    have := key k hk
    simp only
    rw [List.getD_eq_getElem?_getD, List.getElem?_eq_getElem this]
    exact List.getElem_mem this
  · obtain ⟨k, hk, rfl⟩ := List.getElem_of_mem hj
    obtain ⟨m, hm, hmk⟩ := key' k hk
    refine ⟨m, hm, ?_⟩
    rw [hJ m, hmk]
    simp only
    rw [List.getD_eq_getElem?_getD, List.getElem?_eq_getElem hk]; rfl
  · rw [hJ k, hJ m] at hkm
    have h1 := key k hk
    have h2 := key m hm
    simp only [List.getD_eq_getElem?_getD, List.getElem?_eq_getElem h1, List.getElem?_eq_getElem h2, Option.getD_some] at hkm
    exact σ.injective ((hn.getElem_inj_iff).1 hkm)
  · have := hasc a b (by omega) hab (by omega)
    rw [hx a, hx b] at this
    simp only [decide_eq_false_iff_not, not_lt] at this
    rw [hJ a, hJ b]; exact this

theorem nextSheet_iff {α : Type} [LinearOrder α] {θ : Nat → α} {J : Nat → Nat} {n : Nat} (hJ : ∀ k, k < n → FanLinked F i nb (J k)) (hall : ∀ j, FanLinked F i nb j → ∃ k, k < n ∧ J k = j)
    (hmono : ∀ a b, a < b → b < n → θ (J a) < θ (J b)) {k m : Nat} (hk : k < n) (hm : m < n) : NextSheet F i nb θ (J k) (J m) ↔ wrapMark n k = m + 1 := by
  have hlt : ∀ {a b}, a < n → b < n → θ (J a) < θ (J b) → a < b := by
    intro a b ha hb h
    rcases lt_trichotomy a b with x | x | x
    · exact x
    · subst x; exact absurd h (lt_irrefl _)
    · exact absurd h (hmono b a x ha).not_gt
  have hle : ∀ {a b}, a ≤ b → b < n → θ (J a) ≤ θ (J b) := by
    intro a b ha hb
    rcases Nat.lt_or_eq_of_le ha with x | x
    · exact (hmono a b x hb).le
    · rw [x]
  have hw : wrapMark n k = m + 1 ↔ (n < k + 2 ∧ m = 0) ∨ (k + 2 ≤ n ∧ m = k + 1) := by
    unfold wrapMark
    split_ifs with h <;> omega
  rw [hw]
  constructor
  · rintro ⟨-, -, ⟨h1, h2⟩ | ⟨h1, h2⟩⟩
    · have hkm := hlt hk hm h1
      refine Or.inr ⟨by omega, ?_⟩
      by_contra hne
      exact h2 (J (k + 1)) (hJ _ (by omega)) ⟨hmono _ _ (by omega) (by omega), hmono _ _ (by omega) hm⟩
    · refine Or.inl ⟨?_, ?_⟩
      · by_contra hne
        exact absurd (h1 (J (k + 1)) (hJ _ (by omega))) (hmono _ _ (by omega) (by omega)).not_ge
      · by_contra hne
        exact absurd (h2 (J 0) (hJ _ (by omega))) (hmono 0 m (by omega) hm).not_ge
  · rintro (⟨h1, rfl⟩ | ⟨h1, rfl⟩)
    · refine ⟨hJ k hk, hJ _ hm, Or.inr ⟨fun x hx => ?_, fun x hx => ?_⟩⟩
      · obtain ⟨q, hq, rfl⟩ := hall x hx
        exact hle (by omega) hk
      · obtain ⟨q, hq, rfl⟩ := hall x hx
        exact hle (by omega) hq
    · refine ⟨hJ k hk, hJ _ hm, Or.inl ⟨hmono _ _ (by omega) hm, fun x hx hb => ?_⟩⟩
      obtain ⟨q, hq, rfl⟩ := hall x hx
      have := hlt hk hq hb.1
      have := hlt hq hm hb.2
      omega

/-- The marks after all sheets: equal exactly within a sector. -/
theorem sector_marks {l : List Nat} (h : PairsAround F i l) (hS : Sheaf F ns i nb) {α : Type} [LinearOrder α] {θ : Nat → α} {J : Nat → Nat} {n : Nat}
    (hJ : ∀ k, k < n → FanLinked F i nb (J k)) (hall : ∀ j, FanLinked F i nb j → ∃ k, k < n ∧ J k = j) (hmono : ∀ a b, a < b → b < n → θ (J a) < θ (J b))
    {E : List (Nat × Nat × Nat × Nat)} {c : Nat → Nat} (hM : Marked F i l E c) (hE : SheetEdges F ns i nb J n n E) {s t : Nat} (hs : s ∈ l) (ht : t ∈ l) :
    c s = c t ↔ SameSector F ns i nb θ s t := by
  have v1 : ∀ {s k}, s ∈ l → k < n → SheetBelow F ns i nb (J k) s → c s = k + 1 := by
    rintro s k hs hk ⟨u, w, p, h1, h2, h3, h4⟩
    rw [hM.value s hs p h3 _ (hE.2 k hk u w h1) h2, if_pos h4]
  have v2 : ∀ {s k}, s ∈ l → k < n → SheetAbove F ns i nb (J k) s → c s = wrapMark n k := by
    rintro s k hs hk ⟨u, w, p, h1, h2, h3, h4⟩
    rw [hM.value s hs p h3 _ (hE.2 k hk u w h1) h2, if_neg h4]
  have v3 : ∀ {s}, s ∈ l → ∃ k, k < n ∧ (SheetBelow F ns i nb (J k) s ∨ SheetAbove F ns i nb (J k) s) := by
    intro s hs
    obtain ⟨u, w, hsp⟩ := h.around s hs
    obtain ⟨p, -, -, hp, -⟩ := h.partner s hs
    have key : ∀ u w, Spokes F i s u w → (∃ j, OnSheet F ns i nb j u w) → ∃ k, k < n ∧ (SheetBelow F ns i nb (J k) s ∨ SheetAbove F ns i nb (J k) s) := by
      rintro u w hsp ⟨j, m, hon⟩
      obtain ⟨k, hk, rfl⟩ := hall j hon.start
      refine ⟨k, hk, ?_⟩
      by_cases hB : PairBelow F i u w s p
      · exact Or.inl ⟨u, w, p, ⟨m, hon⟩, hsp, hp, hB⟩
      · exact Or.inr ⟨u, w, p, ⟨m, hon⟩, hsp, hp, hB⟩
    obtain ⟨j, hj | hj⟩ := hS.all u w ⟨s, hsp⟩
    · exact key u w hsp ⟨j, hj⟩
    · exact key w u hsp.symm ⟨j, hj⟩
  have v4 : ∀ {s j}, (SheetBelow F ns i nb j s ∨ SheetAbove F ns i nb j s) → ∃ k, k < n ∧ J k = j := by
    rintro s j (⟨u, w, p, ⟨m, h1⟩, -⟩ | ⟨u, w, p, ⟨m, h1⟩, -⟩) <;> exact hall j h1.start
  have hwi : ∀ {k m}, k < n → m < n → wrapMark n k = wrapMark n m → k = m := by
    intro k m hk hm
    unfold wrapMark
    split_ifs <;> omega
  constructor
  · intro he
    obtain ⟨k, hk, a⟩ := v3 hs
    obtain ⟨m, hm, b⟩ := v3 ht
    rcases a with a | a <;> rcases b with b | b
    · rw [v1 hs hk a, v1 ht hm b] at he
      obtain rfl : k = m := by omega
      exact Or.inl ⟨J k, Or.inl ⟨a, b⟩⟩
    · rw [v1 hs hk a, v2 ht hm b] at he
      exact Or.inr ⟨J m, J k, (nextSheet_iff hJ hall hmono hm hk).2 he.symm, Or.inr ⟨a, b⟩⟩
    · rw [v2 hs hk a, v1 ht hm b] at he
      exact Or.inr ⟨J k, J m, (nextSheet_iff hJ hall hmono hk hm).2 he, Or.inl ⟨a, b⟩⟩
    · rw [v2 hs hk a, v2 ht hm b] at he
      obtain rfl := hwi hk hm he
      exact Or.inl ⟨J k, Or.inr ⟨a, b⟩⟩
  · rintro (⟨j, ⟨a, b⟩ | ⟨a, b⟩⟩ | ⟨j, j', hn, hab⟩)
    · obtain ⟨k, hk, rfl⟩ := v4 (Or.inl a)
      rw [v1 hs hk a, v1 ht hk b]
    · obtain ⟨k, hk, rfl⟩ := v4 (Or.inr a)
      rw [v2 hs hk a, v2 ht hk b]
    · obtain ⟨k, hk, rfl⟩ := hall j hn.1
      obtain ⟨m, hm, rfl⟩ := hall j' hn.2.1
      have hw := (nextSheet_iff hJ hall hmono hk hm).1 hn
      rcases hab with ⟨a, b⟩ | ⟨a, b⟩
      · rw [v2 hs hk a, v1 ht hm b, hw]
      · rw [v1 hs hm a, v2 ht hk b, hw]

theorem area_ne_of_around {l : List Nat} (h : PairsAround F i l) {u v : Nat} (hl : FanLinked F i u v) : ∃ d, areaVec ![F.sphere i, F.sphere u, F.sphere v] d ≠ 0 := by
  obtain ⟨s, hs⟩ := hl
  have hsl := h.all _ _ _ hs
  obtain ⟨p, -, -, hp, -⟩ := h.partner s hsl
  by_contra hno
  push Not at hno
  refine (h.sides s hsl p u v hp hs).2 ?_
  unfold dot3
  rw [hno 0, hno 1, hno 2]; ring

/-- **C85, one edge sphere.** Around an edge sphere whose triangles form sheets at different angles, the marking ends without undefined behaviour, and two seeds get the same mark exactly if they lie
in the same sector between two consecutive sheets. -/
theorem C85_edge_marks_partial (F : FanEnv) (ns i : Nat) (l : List Nat) (h : PairsAround F i l) (hex : ∃ nb v, ns ≤ nb ∧ FanLinked F i nb v)
    (hS : ∀ nb v, ns ≤ nb → FanLinked F i nb v → Sheaf F ns i nb)
    (hθ : ∀ nb j0, ns ≤ nb → FanLinked F i nb j0 → ∀ j k, FanLinked F i nb j → FanLinked F i nb k → codeAngle F i nb j0 j = codeAngle F i nb j0 k → j = k) (c : Nat → Nat) :
    ∃ nb j0 c', ns ≤ nb ∧ FanLinked F i nb j0 ∧ markEdge F ns i l (l.length + 1) c = some (some c') ∧
      (∀ s ∈ l, ∀ t ∈ l, c' s = c' t ↔ SameSector F ns i nb (codeAngle F i nb j0) s t) ∧ ∀ x, x ∉ l → c' x = c x := by
  have hlt : ∀ s ∈ l, s < F.attr.length := fun s hs => by
    obtain ⟨p, -, -, x, -⟩ := h.partner s hs
    exact x.lt
  obtain ⟨nb, enb, hnb⟩ := featureNeighbor_spec (F := F) (ns := ns) (i := i) l h.around
  obtain ⟨hf, s0, hs0, v0, hv0⟩ : ns ≤ nb ∧ ∃ s ∈ l, ∃ v, Spokes F i s nb v := by
    rcases hnb with x | ⟨-, x⟩
    · exact x
    · obtain ⟨y, v, hy, s, hs⟩ := hex
      have := x s (h.all _ _ _ hs) y v hs
      omega
  have hsh := hS nb v0 hf ⟨s0, hv0⟩
  obtain ⟨js, ejs, hn, hjs, -, hjs'⟩ := firstLayer_spec h (nb := nb) rfl l [] (fun _ x => x) List.nodup_nil (by simp)
  have hmem : ∀ j, j ∈ js ↔ FanLinked F i nb j := fun j => ⟨hjs j, fun ⟨s, hs⟩ => hjs' s (h.all _ _ _ hs) j hs⟩
  obtain ⟨j0, js, rfl⟩ : ∃ j0 js', js = j0 :: js' := by
    cases js with
    | nil => exact absurd (hjs' s0 hs0 v0 hv0) (by simp)
    | cons a b => exact ⟨a, b, rfl⟩
  have hj0 : FanLinked F i nb j0 := hjs j0 (by simp)
  obtain ⟨J, eJ, q1, q2, q3, q4⟩ := sortSheets_spec (F := F) (i := i) (nb := nb) hn (area_ne_of_around h hj0)
  have hJ : ∀ k, k < (j0 :: js).length → FanLinked F i nb (J k) := fun k hk => hjs _ (q1 k hk)
  have hall : ∀ j, FanLinked F i nb j → ∃ k, k < (j0 :: js).length ∧ J k = j := fun j hj => q2 j ((hmem j).2 hj)
  have hmono : ∀ a b, a < b → b < (j0 :: js).length → codeAngle F i nb j0 (J a) < codeAngle F i nb j0 (J b) := by
    intro a b hab hb
    refine lt_of_le_of_ne (q4 a b hab hb) fun e => ?_
    have := q3 a b (by omega) hb (hθ nb j0 hf hj0 _ _ (hJ a (by omega)) (hJ b hb) e)
    omega
  have hM0 : Marked F i l [] fun s => if s ∈ l then 0 else c s := ⟨fun s hs => by simp only [if_pos hs]; simp, fun _ _ _ _ _ he => by simp at he⟩
  obtain ⟨E, c', e, hM, hE, ho⟩ := markSheets_spec h hsh hJ q3 (j0 :: js).length 0 _ [] (by omega) hM0 ⟨by simp, fun k hk => by omega⟩
  rw [Nat.zero_add] at hE
  refine ⟨nb, j0, c', hf, hj0, ?_, fun s hs t ht => sector_marks h hsh hJ hall hmono hM hE hs ht, fun x hx => by rw [ho x hx, if_neg hx]⟩
  unfold markEdge
  rw [clearMarks_spec _ _ hlt, enb]
  simp only
  rw [countSheets_spec l h.around]
  simp only
  rw [ejs]
  simp only
  rw [eJ]
  exact e

/-- **C85, undefined.** An edge sphere without an edge or corner sphere among its neighbours reads the first entry of an empty array. -/
theorem C85_no_neighbor_undefined (F : FanEnv) (ns i : Nat) (l : List Nat) (h : PairsAround F i l) (hd : ∀ u v, FanLinked F i u v → u ≠ i) (hno : ∀ u v, FanLinked F i u v → u < ns)
    (c : Nat → Nat) (fuel : Nat) :
    markEdge F ns i l fuel c = none := by
  obtain ⟨nb, enb, hnb⟩ := featureNeighbor_spec (F := F) (ns := ns) (i := i) l h.around
  have hni : nb = i := by
    rcases hnb with ⟨x, s, -, v, hs⟩ | ⟨x, -⟩
    · have := hno nb v ⟨s, hs⟩
      omega
    · exact x
  subst hni
  have hlt : ∀ s ∈ l, s < F.attr.length := fun s hs => by
    obtain ⟨p, -, -, x, -⟩ := h.partner s hs
    exact x.lt
  obtain ⟨js, ejs, -, hjs, -, -⟩ := firstLayer_spec h (nb := nb) rfl l [] (fun _ x => x) List.nodup_nil (by simp)
  have hnil : js = [] := by
    cases js with
    | nil => rfl
    | cons j js => exact absurd rfl (hd nb j (hjs j (by simp)))
  unfold markEdge
  rw [clearMarks_spec _ _ hlt, enb]
  simp only
  rw [countSheets_spec l h.around]
  simp only
  rw [ejs]
  simp only
  rw [hnil, sortSheets]

end sheets

end VoroCrust
