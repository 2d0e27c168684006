import Verif.Props.SheetCases

/-! # C85: triangles of three feature spheres -/

namespace VoroCrust

section leak
open Classical

variable {F : FanEnv} {ns i nb : Nat}

/-- The walk always ends, and goes on only from spheres with a property that all spheres have at which it does not stop. -/
theorem walk_total {l : List Nat} (h : PairsAround F i l) {Q : Nat → Prop} (hQ : ∀ k, k < ns → Q k) {a b : Nat} (ha : a ≠ 0) (hb : b ≠ 0) :
    ∀ (f j : Nat) (E : List (Nat × Nat × Nat × Nat)) (c : Nat → Nat), Q j → Marked F i l E c → unmarked l c < f →
      ∃ E' c', walkLoop F i l (fun k => decide (ns ≤ k)) a b f j c = some (some c') ∧ Marked F i l (E' ++ E) c' ∧ (∀ e ∈ E', Q e.1) ∧ ∀ x, x ∉ l → c' x = c x
  | 0, _, _, _, _, _, hf => by omega
  | f + 1, j, E, c, hj, hM, hf => by
    rcases nextTriangle_spec (F := F) (i := i) (j := j) (c := c) l h.around with ⟨e, -⟩ | ⟨s, p, k, e, hs, hz, hsk, hsp⟩
    · exact ⟨[], c, by rw [walkLoop, e], hM, by simp, fun _ _ => rfl⟩
    · have hnE := (hM.zero s hs).1 hz
      obtain ⟨c1, e1, hM1, ho1⟩ := markPair_spec h hM ha hb hs hsp hsk hnE
      have hlt : unmarked l c1 < unmarked l c := by
        refine Finset.card_lt_card (Finset.ssubset_iff_of_subset ?_ |>.2 ⟨s, ?_, ?_⟩)
        · intro t ht
          simp only [Finset.mem_filter, List.mem_toFinset] at ht ⊢
          refine ⟨ht.1, (hM.zero t ht.1).2 fun e he => (hM1.zero t ht.1).1 ht.2 e (by simp [he])⟩
        · simp [hs, hz]
        · simp only [Finset.mem_filter, List.mem_toFinset, not_and]
          intro _ hx
          exact (hM1.zero s hs).1 hx (j, k, a, b) (by simp) hsk
      by_cases hk : ns ≤ k
      · refine ⟨[(j, k, a, b)], c1, ?_, hM1, by simpa using hj, ho1⟩
        rw [walkLoop, e]; simp only; rw [e1]; simp [hk]
      · obtain ⟨E2, c2, e2, hM2, q1, q2⟩ := walk_total h hQ ha hb f k ((j, k, a, b) :: E) c1 (hQ k (by omega)) hM1 (by omega)
        refine ⟨E2 ++ [(j, k, a, b)], c2, ?_, by simpa using hM2, ?_, fun x hx => (q2 x hx).trans (ho1 x hx)⟩
        · rw [walkLoop, e]; simp only; rw [e1]; simp only; rw [if_neg (by simpa using hk)]; exact e2
        · intro e he
          rcases List.mem_append.1 he with he | he
          · exact q1 e he
          · simp only [List.mem_singleton] at he
            subst he
            exact hj

theorem markFirst_none {j a b : Nat} {c : Nat → Nat} : ∀ l : List Nat, (∀ s ∈ l, ∃ u v, Spokes F i s u v) → (∀ s ∈ l, ∀ u v, Spokes F i s u v → u ≠ v) →
    (¬ ∃ s ∈ l, c s = 0 ∧ Spokes F i s nb j) → markFirst F i nb j a b c l = some (j, c)
  | [], _, _, _ => rfl
  | s :: l, h, hd, hex => by
    obtain ⟨u, v, hs⟩ := h s (by simp)
    obtain ⟨p, u, v, e⟩ : ∃ p u v, turned F i s = some (p, u, v) := by
      obtain ⟨p, e | e⟩ := turned_of_spokes hs <;> exact ⟨_, _, _, e⟩
    obtain ⟨h1, h2⟩ := turned_some e
    have ih := markFirst_none (a := a) (b := b) l (fun t ht => h t (by simp [ht])) (fun t ht => hd t (by simp [ht]))
      (fun ⟨t, ht, x⟩ => hex ⟨t, by simp [ht], x⟩)
    have huv := hd s (by simp) u v h1
    rw [markFirst]
    by_cases hc : c s ≠ 0
    · rw [if_pos hc]; exact ih
    · rw [if_neg hc, e]
      simp only
      rw [if_pos ?_]
      · exact ih
      · by_contra hno
        push Not at hno
        obtain ⟨x, y⟩ := hno
        refine hex ⟨s, by simp, not_not.1 hc, ?_⟩
        by_cases hu : u = nb
        · by_cases hv : v = nb
          · exact absurd (hu.trans hv.symm) huv
          · rw [← hu, ← y hv]; exact h1
        · have hu' := x hu
          by_cases hv : v = nb
          · rw [← hv, ← hu']; exact h1.symm
          · exact absurd (hu'.trans (y hv).symm) huv

theorem markSheets_total {l : List Nat} (h : PairsAround F i l) {Q : Nat → Prop} (hQ : ∀ k, k < ns → Q k) {J : Nat → Nat} {n : Nat} (hJ : ∀ k, k < n → FanLinked F i nb (J k))
    (hJQ : ∀ k, k < n → Q (J k)) : ∀ (m q : Nat) (c : Nat → Nat) (E : List (Nat × Nat × Nat × Nat)), q + m ≤ n → Marked F i l E c → (∀ e ∈ E, e.1 = nb ∨ Q e.1) →
      ∃ E' c', markSheets F ns i nb l J n (l.length + 1) m q c = some (some c') ∧ Marked F i l E' c' ∧ (∀ e ∈ E', e.1 = nb ∨ Q e.1) ∧ ∀ x, x ∉ l → c' x = c x
  | 0, q, c, E, _, hM, hE => ⟨E, c, rfl, hM, hE, fun _ _ => rfl⟩
  | m + 1, q, c, E, hq, hM, hE => by
    have hnj : nb ≠ J q := by
      obtain ⟨s, hs⟩ := hJ q (by omega)
      exact h.distinct s (h.all _ _ _ hs) _ _ hs
    have hw : (if q + 2 > n then 1 else q + 2) ≠ 0 := by split_ifs <;> omega
    obtain ⟨E1, c1, e1, hM1, hE1, ho1⟩ : ∃ E1 c1, markFirst F i nb (J q) (q + 1) (if q + 2 > n then 1 else q + 2) c l = some (J q, c1) ∧ Marked F i l E1 c1 ∧
        (∀ e ∈ E1, e.1 = nb ∨ Q e.1) ∧ ∀ x, x ∉ l → c1 x = c x := by
      by_cases hex : ∃ s ∈ l, c s = 0 ∧ Spokes F i s nb (J q)
      · obtain ⟨s, p, hs, hz, hsp, hp, e⟩ := markFirst_spec (F := F) (i := i) (nb := nb) (a := q + 1) (b := if q + 2 > n then 1 else q + 2) (c := c) hnj l h.around h.distinct hex
        obtain ⟨c1, e1, hM1, ho1⟩ := markPair_spec h hM (by omega : q + 1 ≠ 0) hw hs hp hsp ((hM.zero s hs).1 hz)
        refine ⟨_, c1, by rw [e, e1]; rfl, hM1, fun e he => ?_, ho1⟩
        rcases List.mem_cons.1 he with rfl | he
        · exact Or.inl rfl
        · exact hE e he
      · exact ⟨E, c, markFirst_none l h.around h.distinct hex, hM, hE, fun _ _ => rfl⟩
    obtain ⟨E2, c2, e2, hM2, hE2, ho2⟩ := walk_total h hQ (by omega : q + 1 ≠ 0) hw (l.length + 1) (J q) E1 c1 (hJQ q (by omega)) hM1 (by have := unmarked_le l c1; omega)
    obtain ⟨E3, c3, e3, hM3, hE3, ho3⟩ := markSheets_total h hQ hJ hJQ m (q + 1) c2 (E2 ++ E1) (by omega) hM2 (by
      intro e he
      rcases List.mem_append.1 he with he | he
      · exact Or.inr (hE2 e he)
      · exact hE1 e he)
    refine ⟨E3, c3, ?_, hM3, hE3, fun x hx => by rw [ho3 x hx, ho2 x hx, ho1 x hx]⟩
    rw [markSheets, e1]
    simp only
    rw [e2]
    exact e3

/-- Around an edge sphere with an edge or corner sphere among its neighbours, the marking always ends; all marked triangles have a sphere from which a walk started or went on. -/
theorem markEdge_total {l : List Nat} (h : PairsAround F i l) (hnb : featureNeighbor F ns i l = some nb) (hf : ∃ v, FanLinked F i nb v) {Q : Nat → Prop} (hQ : ∀ k, k < ns → Q k)
    (hJQ : ∀ j, FanLinked F i nb j → Q j) (c : Nat → Nat) :
    ∃ E c', markEdge F ns i l (l.length + 1) c = some (some c') ∧ Marked F i l E c' ∧ (∀ e ∈ E, e.1 = nb ∨ Q e.1) ∧ ∀ x, x ∉ l → c' x = c x := by
  have hlt : ∀ s ∈ l, s < F.attr.length := fun s hs => by
    obtain ⟨p, -, -, x, -⟩ := h.partner s hs
    exact x.lt
  obtain ⟨v0, s0, hv0⟩ := hf
  have hs0 := h.all _ _ _ hv0
  obtain ⟨js, ejs, hn, hjs, -, hjs'⟩ := firstLayer_spec h (nb := nb) rfl l [] (fun _ x => x) List.nodup_nil (by simp)
  obtain ⟨j0, js, rfl⟩ : ∃ j0 js', js = j0 :: js' := by
    cases js with
    | nil => exact absurd (hjs' s0 hs0 v0 hv0) (by simp)
    | cons a b => exact ⟨a, b, rfl⟩
  have hj0 : FanLinked F i nb j0 := hjs j0 (by simp)
  obtain ⟨J, eJ, q1, q2, q3, q4⟩ := sortSheets_spec (F := F) (i := i) (nb := nb) hn (area_ne_of_around h hj0)
  have hJ : ∀ k, k < (j0 :: js).length → FanLinked F i nb (J k) := fun k hk => hjs _ (q1 k hk)
  have hM0 : Marked F i l [] fun s => if s ∈ l then 0 else c s := ⟨fun s hs => by simp only [if_pos hs]; simp, fun _ _ _ _ _ he => by simp at he⟩
  obtain ⟨E, c', e, hM, hE, ho⟩ := markSheets_total h hQ hJ (fun k hk => hJQ _ (hJ k hk)) (j0 :: js).length 0 _ [] (by omega) hM0 (by simp)
  refine ⟨E, c', ?_, hM, hE, fun x hx => by rw [ho x hx, if_neg hx]⟩
  unfold markEdge
  rw [clearMarks_spec _ _ hlt, hnb]
  simp only
  rw [countSheets_spec l h.around]
  simp only
  rw [ejs]
  simp only
  rw [eJ]
  exact e

/-- **C85, false of triangles of three feature spheres.** If the sheets are followed from an edge or corner sphere whose triangles lead to surface spheres, then a triangle of the edge sphere
and two other edge or corner spheres is never marked, and its seeds, which lie on different sides of the surface, are treated like seeds of the same sector. -/
theorem C85_feature_triangle_bug (F : FanEnv) (ns i nb : Nat) (l : List Nat) (h : PairsAround F i l) (hnb : featureNeighbor F ns i l = some nb) (hf : ∃ v, FanLinked F i nb v)
    (hfirst : ∀ j, FanLinked F i nb j → j < ns) (s p u w : Nat) (hs : Spokes F i s u w) (hp : Partner F s p) (hu : ns ≤ u) (hw : ns ≤ w) (c : Nat → Nat) :
    ∃ c', markEdge F ns i l (l.length + 1) c = some (some c') ∧ c' s = c' p ∧ dot3 (fun d => F.seed p d - F.seed s d) (areaVec ![F.sphere i, F.sphere u, F.sphere w]) ≠ 0 := by
  obtain ⟨E, c', e, hM, hE, -⟩ := markEdge_total h hnb hf (Q := fun k => k < ns) (fun _ x => x) hfirst c
  have hsl := h.all _ _ _ hs
  obtain ⟨p', hpl, -, hp', -, hsame⟩ := h.partner s hsl
  obtain rfl := hp'.unique hp
  have hz : ∀ t, t ∈ l → Spokes F i t u w → c' t = 0 := by
    intro t ht hts
    refine (hM.zero t ht).2 fun x hx hx' => ?_
    have key : ∀ y z, FanLinked F i y z → ns ≤ y → ns ≤ z → x.1 = y → False := by
      intro y z hl hy hz hxy
      rcases hE x hx with q | q
      · have := hfirst z (by rw [← q, hxy]; exact hl)
        omega
      · omega
    rcases hts.det hx' with ⟨a, -⟩ | ⟨a, -⟩
    · exact key u w ⟨s, hs⟩ hu hw a
    · exact key w u ⟨s, hs.symm⟩ hw hu a
  exact ⟨c', e, by rw [hz s hsl hs, hz p' hpl (hsame _ _ hs)], (h.sides s hsl p' u w hp hs).2⟩

theorem colourSphere_total {ns cap capS : Nat} {G : Graph} (hP : PairedSeeds F) (hcap : F.attr.length ≤ cap) {i : Nat} (hi : ns ≤ i)
    (hG : GraphOk capS G fun i s => ∃ u v, Spokes F i s u v) (hGr : G.rows ≠ none) (hiS : i < capS) (hE : (∃ s u v, Spokes F i s u v) → ∃ nb v, ns ≤ nb ∧ FanLinked F i nb v) :
    ∃ c' : Nat → Nat, (∀ l, graphNeighbors G i = some (some l) → PairsAround F i l ∧ markEdge F ns i l (l.length + 1) (fun _ => 0) = some (some c')) ∧
      ∀ (g : Graph) (R : Nat → Nat → Prop), GraphOk cap g R → ∃ g', colourSphere F ns cap G i (fun _ => 0) g = some (fun _ => 0, g') ∧
        GraphOk cap g' fun s t => R s t ∨ (s ≠ t ∧ (∃ u v, Spokes F i s u v) ∧ (∃ u v, Spokes F i t u v) ∧ c' s = c' t) := by
  rcases neighbors_ok hG hGr hiS with ⟨e, hno⟩ | ⟨l, e, hl, hn, hmem⟩
  · refine ⟨fun _ => 0, fun l hl => (by rw [e] at hl; cases hl), fun g R hg => ⟨g, by unfold colourSphere; rw [e], hg.congr fun a b => ?_⟩⟩
    exact ⟨Or.inl, fun x => x.elim id fun y => absurd y.2.1 (hno a)⟩
  · have hPA := hP.pairsAround hn hmem
    have hsome : ∃ s u v, Spokes F i s u v := by
      obtain ⟨s, hs⟩ := List.exists_mem_of_ne_nil l hl
      exact ⟨s, (hmem s).1 hs⟩
    obtain ⟨y, v, hy, hyv⟩ := hE hsome
    obtain ⟨nb, enb, hnb⟩ := featureNeighbor_spec (F := F) (ns := ns) (i := i) l hPA.around
    have hf : ∃ v, FanLinked F i nb v := by
      rcases hnb with ⟨-, s, -, v, hs⟩ | ⟨-, x⟩
      · exact ⟨v, s, hs⟩
      · obtain ⟨s, hs⟩ := hyv
        have := x s (hPA.all _ _ _ hs) y v hs
        omega
    obtain ⟨E, c', e1, -, -, ho⟩ := markEdge_total hPA enb hf (Q := fun _ => True) (fun _ _ => trivial) (fun _ _ => trivial) fun _ => 0
    have hlt : ∀ s ∈ l, s < F.attr.length := fun s hs => by
      obtain ⟨u, v, a, ea, -⟩ := (hmem s).1 hs
      exact (List.getElem?_eq_some_iff.1 ea).1
    refine ⟨c', fun l' hl' => by rw [e] at hl'; cases hl'; exact ⟨hPA, e1⟩, fun g R hg => ?_⟩
    obtain ⟨g', e2, hg', -⟩ := joinEqual_spec c' hcap l g R hg hlt hn
    refine ⟨g', ?_, hg'.congr fun a b => ?_⟩
    · unfold colourSphere
      rw [e]
      simp only [if_neg (show ¬ i < ns by omega), e1, e2, clearMarks_spec l c' hlt]
      congr 2
      funext x
      by_cases hx : x ∈ l
      · simp only [if_pos hx]
      · simp only [if_neg hx]; rw [ho x hx]
    · rw [hmem a, hmem b]
      constructor
      · rintro (h | ⟨x, y, z, w⟩)
        · exact Or.inl h
        · exact Or.inr ⟨z, x, y, w⟩
      · rintro (h | ⟨z, x, y, w⟩)
        · exact Or.inl h
        · exact Or.inr ⟨x, y, z, w⟩

/-- A connection appends to one list. -/
theorem graphConnect_appends {n c i j code : Nat} {g g' : Graph} (h : graphConnect n c g i j = some (code, g')) (k : Nat) :
    storedNeighbors g' k = storedNeighbors g k ∨ storedNeighbors g' k = storedNeighbors g k ++ [j] := by
  unfold graphConnect at h
  by_cases hi : n ≤ i
  · rw [if_pos hi] at h; simp only [Option.some.injEq, Prod.mk.injEq] at h; rw [← h.2]; exact Or.inl rfl
  · rw [if_neg hi] at h
    have hE : storedNeighbors (g.enlarge c) k = storedNeighbors g k := by
      cases hr : g.rows with
      | none =>
        have : g.enlarge c = { rows := some (fun _ => none), cap := c } := by simp [Graph.enlarge, hr]
        rw [this, storedNeighbors_eq, storedNeighbors_eq]
        simp [Graph.row, hr]
      | some rows =>
        by_cases h1 : g.cap < c
        · have : g.enlarge c = { rows := some (fun k => if k < g.cap then rows k else none), cap := c } := by simp [Graph.enlarge, hr, h1]
          rw [this, storedNeighbors_eq, storedNeighbors_eq]
          simp only [Graph.row, hr]
          by_cases h2 : k < g.cap
          · rw [if_pos (show k < c by omega), if_pos h2]
          · by_cases h3 : k < c
            · rw [if_pos h3, if_neg h2]
            · rw [if_neg h3, if_neg h2]
        · have : g.enlarge c = g := by simp [Graph.enlarge, hr, h1]
          rw [this]
    rw [← hE]
    simp only at h
    cases hr : (g.enlarge c).rows with
    | none => simp [hr] at h
    | some rows =>
      simp only [hr] at h
      by_cases hic : i < (g.enlarge c).cap
      · rw [if_pos hic] at h
        have hens : storedNeighbors { g.enlarge c with rows := some (ensureRow rows i) } k = storedNeighbors (g.enlarge c) k := by
          rw [storedNeighbors_eq, storedNeighbors_eq]
          simp only [Graph.row, hr]
          by_cases hk : k < (g.enlarge c).cap
          · rw [if_pos hk, if_pos hk]
            unfold ensureRow
            cases hri : rows i with
            | some e => rfl
            | none =>
              by_cases hki : k = i
              · subst hki; simp [upd, hri]
              · simp [upd, hki]
          · rw [if_neg hk, if_neg hk]
        rw [← hens]
        cases hcon : graphConnected { g.enlarge c with rows := some (ensureRow rows i) } i j with
        | none => simp [hcon] at h
        | some b =>
          simp only [hcon] at h
          cases b with
          | true =>
            simp only [Option.some.injEq, Prod.mk.injEq] at h
            rw [← h.2]; exact Or.inl rfl
          | false =>
            cases hei : ensureRow rows i i with
            | none => simp [hei] at h
            | some e0 =>
              simp only [hei] at h
              by_cases hroom : e0.num < e0.cap
              · rw [if_pos hroom] at h
                simp only [Option.some.injEq, Prod.mk.injEq] at h
                rw [← h.2, storedNeighbors_eq, storedNeighbors_eq]
                simp only [Graph.row]
                by_cases hk : k < (g.enlarge c).cap
                · rw [if_pos hk, if_pos hk]
                  by_cases hki : k = i
                  · subst hki
                    right
                    simp only [upd, if_true, hei]
                    have hlist : (List.range (e0.num + 1)).map (upd e0.cells e0.num j) = (List.range e0.num).map e0.cells ++ [j] := by
                      rw [List.range_succ, List.map_append]
                      congr 1
                      · apply List.map_congr_left
                        intro m hm
                        have := List.mem_range.1 hm
                        simp [upd, Nat.ne_of_lt this]
                      · simp [upd]
                    by_cases hfull : e0.num + 1 = e0.cap
                    · rw [if_pos hfull]; exact hlist
                    · rw [if_neg hfull]; exact hlist
                  · left; simp [upd, hki]
                · rw [if_neg hk, if_neg hk]; exact Or.inl rfl
              · rw [if_neg hroom] at h; simp at h
      · rw [if_neg hic] at h; simp at h

/-- The seeds of every sphere are listed in ascending order. -/
theorem linkSpheres_sorted {n cap : Nat} : ∀ (l : List SeedAttr) (q : Nat) (g G : Graph), linkSpheres n cap l q g = some G →
    (∀ k, (storedNeighbors g k).Pairwise (· ≤ ·) ∧ ∀ x ∈ storedNeighbors g k, x ≤ q) → ∀ k, (storedNeighbors G k).Pairwise (· ≤ ·)
  | [], q, g, G, h, hs, k => by
    simp only [linkSpheres, Option.some.injEq] at h
    rw [← h]; exact (hs k).1
  | a :: l, q, g, G, h, hs, k => by
    have step : ∀ {i code : Nat} {g g' : Graph}, graphConnect n cap g i q = some (code, g') → (∀ k, (storedNeighbors g k).Pairwise (· ≤ ·) ∧ ∀ x ∈ storedNeighbors g k, x ≤ q) →
        ∀ k, (storedNeighbors g' k).Pairwise (· ≤ ·) ∧ ∀ x ∈ storedNeighbors g' k, x ≤ q := by
      intro i code g g' h hs k
      obtain ⟨h1, h2⟩ := hs k
      rcases graphConnect_appends h k with e | e <;> rw [e]
      · exact ⟨h1, h2⟩
      · refine ⟨List.pairwise_append.2 ⟨h1, by simp, fun x hx y hy => ?_⟩, fun x hx => ?_⟩
        · rw [List.mem_singleton.1 hy]; exact h2 x hx
        · rcases List.mem_append.1 hx with hx | hx
          · exact h2 x hx
          · rw [List.mem_singleton.1 hx]
    unfold linkSpheres at h
    cases e1 : graphConnect n cap g a.s1 q with
    | none => simp [e1] at h
    | some r1 =>
      obtain ⟨c1, g1⟩ := r1
      simp only [e1] at h
      cases e2 : graphConnect n cap g1 a.s2 q with
      | none => simp [e2] at h
      | some r2 =>
        obtain ⟨c2, g2⟩ := r2
        simp only [e2] at h
        cases e3 : graphConnect n cap g2 a.s3 q with
        | none => simp [e3] at h
        | some r3 =>
          obtain ⟨c3, g3⟩ := r3
          simp only [e3] at h
          refine linkSpheres_sorted l (q + 1) g3 G h (fun k => ?_) k
          obtain ⟨h1, h2⟩ := step e3 (step e2 (step e1 hs)) k
          exact ⟨h1, fun x hx => (h2 x hx).trans (by omega)⟩

/-- **C85, leak.** A triangle of an edge sphere and two other edge or corner spheres connects the two sides of the surface: its seeds lie on different sides but get the same region. -/
theorem C85_leak_bug (F : FanEnv) (ns ne nt capS cap k k' : Nat) (hP : PairedSeeds F) (hnt : ns + ne ≤ nt) (hS : nt ≤ capS) (hcap : F.attr.length ≤ cap)
    (hns : ∀ a ∈ F.attr, a.s1 < nt ∧ a.s2 < nt ∧ a.s3 < nt) (h2 : ∀ i, i < ns → ∀ w, TwoTriangles F i w) (h1 : ∀ i, i < ns → OneFan F i)
    (hE : ∀ i, ns ≤ i → i < ns + ne → (∃ s u v, Spokes F i s u v) → ∃ nb v, ns ≤ nb ∧ FanLinked F i nb v)
    (i nb : Nat) (hi : ns ≤ i) (hin : i < ns + ne) (hnb : ∀ l : List Nat, l.Pairwise (· < ·) → (∀ s, s ∈ l ↔ ∃ u v, Spokes F i s u v) → featureNeighbor F ns i l = some nb) (hf : ∃ v, FanLinked F i nb v)
    (hfirst : ∀ j, FanLinked F i nb j → j < ns) (s p u w : Nat) (hs : Spokes F i s u w) (hp : Partner F s p) (hu : ns ≤ u) (hw : ns ≤ w) (e : Nat) (he : e < F.attr.length) :
    ∃ G c g reg nr, linkSpheres nt capS F.attr 0 { rows := none, cap := k } = some G ∧
      colourSpheres F ns cap G (ns + ne) (fun _ => 0) { rows := none, cap := k' } = some (c, g) ∧
      colourSeeds g F.attr.length e = some (reg, nr) ∧ reg s = reg p ∧ dot3 (fun d => F.seed p d - F.seed s d) (areaVec ![F.sphere i, F.sphere u, F.sphere w]) ≠ 0 := by
  obtain ⟨a0, ea0, hpa0⟩ := id hs
  have hne : F.attr ≠ [] := List.ne_nil_of_mem (List.mem_of_getElem? ea0)
  obtain ⟨G, eG, hG, hGr⟩ := linkSpheres_spec hS F.attr 0 _ _ (emptyGraph_ok capS k) hns
  have hG' : GraphOk capS G fun i s => ∃ u v, Spokes F i s u v := hG.congr fun i s => by
    rw [spokes_iff_mem]
    constructor
    · rintro (h | ⟨m, a, x, y, z⟩)
      · exact h.elim
      · exact ⟨a, by rw [y, Nat.zero_add]; exact x, z⟩
    · rintro ⟨a, x, z⟩
      exact Or.inr ⟨s, a, x, by omega, z⟩
  have hGr := hGr (Or.inr hne)
  have hedge : ∀ i, ∃ c' : Nat → Nat, ns ≤ i → i < ns + ne → (∀ l, graphNeighbors G i = some (some l) → PairsAround F i l ∧ markEdge F ns i l (l.length + 1) (fun _ => 0) = some (some c')) ∧
      ∀ (g : Graph) (R : Nat → Nat → Prop), GraphOk cap g R → ∃ g', colourSphere F ns cap G i (fun _ => 0) g = some (fun _ => 0, g') ∧
        GraphOk cap g' fun s t => R s t ∨ (s ≠ t ∧ (∃ u v, Spokes F i s u v) ∧ (∃ u v, Spokes F i t u v) ∧ c' s = c' t) := by
    intro i
    by_cases hi : ns ≤ i ∧ i < ns + ne
    · obtain ⟨c', h⟩ := colourSphere_total hP hcap hi.1 hG' hGr (by omega) (hE i hi.1 hi.2)
      exact ⟨c', fun _ _ => h⟩
    · exact ⟨fun _ => 0, fun a b => absurd ⟨a, b⟩ hi⟩
  choose cm hedge using hedge
  obtain ⟨c0, g0, ec0, hc0, hg0⟩ := colourSpheres_fans hP hcap hG' hGr (by omega : ns ≤ capS) h2 h1 k' ns le_rfl
  have hc0 : c0 = fun _ => 0 := funext hc0
  subst hc0
  have hloop : ∀ m, m ≤ ne → ∃ g, colourSpheres F ns cap G (ns + m) (fun _ => 0) { rows := none, cap := k' } = some (fun _ => 0, g) ∧
      GraphOk cap g fun s t => s ≠ t ∧ ∃ i, (i < ns ∧ (∃ u v, Spokes F i s u v) ∧ SameSide F i s t) ∨
        (ns ≤ i ∧ i < ns + m ∧ (∃ u v, Spokes F i s u v) ∧ (∃ u v, Spokes F i t u v) ∧ cm i s = cm i t) := by
    intro m
    induction m with
    | zero =>
      intro _
      refine ⟨g0, ec0, hg0.congr fun a b => ?_⟩
      constructor
      · rintro ⟨i, x, y, z, w⟩; exact ⟨z, i, Or.inl ⟨x, y, w⟩⟩
      · rintro ⟨z, i, ⟨x, y, w⟩ | ⟨x, y, -⟩⟩
        · exact ⟨i, x, y, z, w⟩
        · omega
    | succ m ih =>
      intro hm
      obtain ⟨g, eg, hg⟩ := ih (by omega)
      obtain ⟨g', eg', hg'⟩ := (hedge (ns + m) (by omega) (by omega)).2 g _ hg
      refine ⟨g', by rw [← Nat.add_assoc, colourSpheres, eg]; exact eg', hg'.congr fun a b => ?_⟩
      constructor
      · rintro (⟨x, i, y | ⟨y, z, w⟩⟩ | ⟨x, y⟩)
        · exact ⟨x, i, Or.inl y⟩
        · exact ⟨x, i, Or.inr ⟨y, by omega, w⟩⟩
        · exact ⟨x, ns + m, Or.inr ⟨by omega, by omega, y⟩⟩
      · rintro ⟨x, i, y | ⟨y, z, w⟩⟩
        · exact Or.inl ⟨x, i, Or.inl y⟩
        · by_cases him : i = ns + m
          · subst him; exact Or.inr ⟨x, w⟩
          · exact Or.inl ⟨x, i, Or.inr ⟨y, by omega, w⟩⟩
  obtain ⟨g, eg, hg⟩ := hloop ne le_rfl
  have hrel : ∀ s t, t ∈ storedNeighbors g s ↔ s ≠ t ∧ ∃ i, (i < ns ∧ (∃ u v, Spokes F i s u v) ∧ SameSide F i s t) ∨
      (ns ≤ i ∧ i < ns + ne ∧ (∃ u v, Spokes F i s u v) ∧ (∃ u v, Spokes F i t u v) ∧ cm i s = cm i t) := fun s t => hg.inv.rel s t
  -- the seeds of the triangle are connected
  obtain ⟨l, hl, hPA, hfn⟩ : ∃ l, graphNeighbors G i = some (some l) ∧ PairsAround F i l ∧ featureNeighbor F ns i l = some nb := by
    rcases neighbors_ok hG' hGr (i := i) (by omega) with ⟨-, hno⟩ | ⟨l, e, -, hn, hmem⟩
    · exact absurd ⟨u, w, hs⟩ (hno s)
    · have hsort := linkSpheres_sorted F.attr 0 _ G eG (fun k => by simp [storedNeighbors, graphNeighbors]) i
      have hst : storedNeighbors G i = l := by simp [storedNeighbors, e]
      rw [hst] at hsort
      exact ⟨l, e, ((hedge i hi hin).1 l e).1, hnb l ((hsort.and hn).imp fun h => lt_of_le_of_ne h.1 h.2) hmem⟩
  obtain ⟨c', e1, hc', hside⟩ := C85_feature_triangle_bug F ns i nb l hPA hfn hf hfirst s p u w hs hp hu hw fun _ => 0
  have e1' := ((hedge i hi hin).1 l hl).2
  rw [e1] at e1'
  have hcm : c' = cm i := by simpa using e1'
  obtain ⟨p', -, hps, hp', -, hsame⟩ := hPA.partner s (hPA.all _ _ _ hs)
  obtain rfl := hp'.unique hp
  have hsp : p' ∈ storedNeighbors g s := (hrel s p').2 ⟨hps.symm, i, Or.inr ⟨hi, hin, ⟨u, w, hs⟩, ⟨u, w, hsame _ _ hs⟩, by rw [← hcm]; exact hc'⟩⟩
  have hlen : ∀ {i t}, (∃ u v, Spokes F i t u v) → t < F.attr.length := by
    rintro i t ⟨u, v, a, ea, -⟩
    exact (List.getElem?_eq_some_iff.1 ea).1
  have hSG : SeedGraph g F.attr.length := by
    have hrows : g.rows ≠ none := by
      intro hno
      simp [storedNeighbors, graphNeighbors, hno] at hsp
    refine ⟨fun s hs hno => ?_, fun s t _ ht => ?_, fun s t _ ht => ?_⟩
    · rcases neighbors_ok hg hrows (i := s) (by omega) with ⟨x, -⟩ | ⟨l, x, -⟩ <;> rw [hno] at x <;> cases x
    · obtain ⟨-, i, ⟨-, hs, hst⟩ | ⟨-, -, -, ht, -⟩⟩ := (hrel s t).1 ht
      · exact hlen (hst.around hs)
      · exact hlen ht
    · obtain ⟨h0, i, ⟨hi, hs, hst⟩ | ⟨x, y, a, b, hst⟩⟩ := (hrel s t).1 ht
      · exact (hrel t s).2 ⟨h0.symm, i, Or.inl ⟨hi, hst.around hs, hst.symm hP⟩⟩
      · exact (hrel t s).2 ⟨h0.symm, i, Or.inr ⟨x, y, b, a, hst.symm⟩⟩
  obtain ⟨reg, nr, er, hr, -⟩ := C40_regions_are_components g F.attr.length hSG e he
  exact ⟨G, _, g, reg, nr, eG, eg, er, (hr s p' (hlen ⟨u, w, hs⟩) (hlen ⟨u, w, hsame _ _ hs⟩)).2 (.single hsp), hside⟩

end leak

/-! ## Example -/

/-- The corners of a pyramid over a quadrilateral, and a point on one of its edges: 0 and 1 are taken as surface spheres, 2 as an edge sphere between 3 and 5. -/
def pyrPoint (i : Nat) : V3 := ![![1, 1, 0], ![1, 0, 1], ![1, 0, 0], ![2, 0, 0], ![0, 1, 0], ![0, 0, 0]] (Fin.ofNat 6 i)

/-- The triangles of the pyramid; the base consists of the first three, the last of which has no surface sphere. -/
def pyrFaces : List (Nat × Nat × Nat) := [(0, 2, 3), (0, 2, 4), (2, 4, 5), (1, 2, 5), (1, 2, 3), (0, 1, 3), (0, 1, 4), (1, 4, 5)]

/-- For each triangle two seeds, on different sides. -/
noncomputable def pyrFans : FanEnv where
  attr := twoSeeds pyrFaces 0
  seed := fun s d => match (twoSeeds pyrFaces 0)[s]? with
    | some a => (pyrPoint a.s1 d + pyrPoint a.s2 d + pyrPoint a.s3 d) / 3 + (if s % 2 = 0 then -1 else 1) * ![1 / 10, 1 / 10, 1 / 5] d
    | none => 0
  sphere := pyrPoint

theorem pyrPoint_le (i : Nat) (d : Fin 3) : 0 ≤ pyrPoint i d ∧ pyrPoint i d ≤ 2 := by
  unfold pyrPoint
  generalize Fin.ofNat 6 i = j
  fin_cases j <;> fin_cases d <;> simp <;> norm_num

theorem triNormal_wide (c : Fin 3 → V3) (hb : ∀ k d, 0 ≤ c k d ∧ c k d ≤ 2) (h : ∃ d, 1 ≤ |areaVec c d|) : (triNormal c).2 = true := by
  by_contra hno
  have hle := triNormal_false c (by simpa using hno)
  have hl : ∀ k, len3 (fun d => c k d - c 0 d) ≤ 4 := by
    intro k
    unfold len3
    rw [show (4 : ℝ) = Real.sqrt 16 by rw [show (16 : ℝ) = 4 ^ 2 by norm_num]; exact (Real.sqrt_sq (by norm_num)).symm]
    apply Real.sqrt_le_sqrt
    unfold dot3
    have : ∀ d, (c k d - c 0 d) * (c k d - c 0 d) ≤ 4 := by
      intro d
      have h1 := hb k d
      have h2 := hb 0 d
      nlinarith
    linarith [this 0, this 1, this 2]
  have h0 : ∀ k, 0 ≤ len3 (fun d => c k d - c 0 d) := fun k => Real.sqrt_nonneg _
  have hge : 1 ≤ len3 (areaVec c) := by
    obtain ⟨d, hd⟩ := h
    unfold len3
    rw [show (1 : ℝ) = Real.sqrt 1 by simp]
    apply Real.sqrt_le_sqrt
    have h1 : 1 ≤ areaVec c d * areaVec c d := by
      have := mul_self_le_mul_self (by norm_num : (0 : ℝ) ≤ 1) hd
      rwa [abs_mul_abs_self, one_mul] at this
    unfold dot3
    have q := fun d => mul_self_nonneg (areaVec c d)
    fin_cases d
    · have := q 1; have := q 2; simp at *; linarith
    · have := q 0; have := q 2; simp at *; linarith
    · have := q 0; have := q 1; simp at *; linarith
  unfold triScale at hle
  have := mul_le_mul (hl 1) (hl 2) (h0 2) (by norm_num)
  have := hl 1
  have := hl 2
  linarith

theorem pyr_area : ∀ a ∈ twoSeeds pyrFaces 0, (∃ d, 1 ≤ |areaVec ![pyrPoint a.s1, pyrPoint a.s2, pyrPoint a.s3] d|) ∧
    areaVec ![pyrPoint a.s1, pyrPoint a.s2, pyrPoint a.s3] 0 + areaVec ![pyrPoint a.s1, pyrPoint a.s2, pyrPoint a.s3] 1 + 2 * areaVec ![pyrPoint a.s1, pyrPoint a.s2, pyrPoint a.s3] 2 ≠ 0 := by
  intro a ha
  simp only [pyrFaces, twoSeeds, List.mem_cons, List.not_mem_nil, or_false] at ha
  rcases ha with rfl | rfl | rfl | rfl | rfl | rfl | rfl | rfl | rfl | rfl | rfl | rfl | rfl | rfl | rfl | rfl <;>
    (unfold areaVec cross3; constructor
     · first
        | (refine ⟨0, ?_⟩; simp [pyrPoint, Fin.ofNat]; done)
        | (refine ⟨1, ?_⟩; simp [pyrPoint, Fin.ofNat]; done)
        | (refine ⟨2, ?_⟩; simp [pyrPoint, Fin.ofNat]; done)
        | (refine ⟨0, ?_⟩; simp [pyrPoint, Fin.ofNat]; norm_num; done)
        | (refine ⟨1, ?_⟩; simp [pyrPoint, Fin.ofNat]; norm_num; done)
        | (refine ⟨2, ?_⟩; simp [pyrPoint, Fin.ofNat]; norm_num)
     · simp [pyrPoint, Fin.ofNat] <;> norm_num)

theorem pyr_paired : PairedSeeds pyrFans := by
  have hc : pairCheck (twoSeeds pyrFaces 0) = true := by decide +kernel
  refine ⟨fun s a ha => ?_, fun a ha => ?_, fun s t a b ha hb hp => ?_, fun s a ha i u v hp => ?_⟩
  · obtain ⟨h1, -, ⟨b, hb, h2, h3, h4, h5⟩, -⟩ := pairCheck_spec hc s a ha
    exact ⟨fun e => h1 (by rw [e]), b, hb, h2, by rw [h3, h4, h5]⟩
  · obtain ⟨s, hs⟩ := List.getElem?_of_mem ha
    exact (pairCheck_spec hc s a hs).2.1
  · exact (pairCheck_spec hc s a ha).2.2.2 t b hb hp
  · have ha' : (twoSeeds pyrFaces 0)[s]? = some a := ha
    obtain ⟨hpar, -, ⟨b, hb, -, h1, h2, h3⟩, -⟩ := pairCheck_spec hc s a ha
    obtain ⟨⟨d0, hd0⟩, hsum⟩ := pyr_area a (List.mem_of_getElem? ha')
    have hperm := areaVec_perm pyrPoint hp
    have hdiff : ∃ σ : ℝ, σ ≠ 0 ∧ ∀ d, pyrFans.seed a.pair d - pyrFans.seed s d = σ * ![1, 1, 2] d := by
      simp only [pyrFans, ha', hb, h1, h2, h3]
      by_cases hs : s % 2 = 0
      · refine ⟨1 / 5, by norm_num, fun d => ?_⟩
        rw [if_pos hs, if_neg (by omega)]; fin_cases d <;> simp <;> ring
      · refine ⟨-1 / 5, by norm_num, fun d => ?_⟩
        rw [if_neg hs, if_pos (by omega)]; fin_cases d <;> simp <;> ring
    obtain ⟨σ, hσ, hd⟩ := hdiff
    constructor
    · apply triNormal_wide
      · intro k d
        fin_cases k <;> exact pyrPoint_le _ d
      · refine ⟨d0, ?_⟩
        show 1 ≤ |areaVec ![pyrPoint i, pyrPoint u, pyrPoint v] d0|
        rcases hperm with h | h <;> rw [h d0]
        · exact hd0
        · rw [abs_neg]; exact hd0
    · have e : (fun d => pyrFans.seed a.pair d - pyrFans.seed s d) = fun d => σ * ![1, 1, 2] d := funext hd
      rw [e]
      show dot3 (fun d => σ * ![1, 1, 2] d) (areaVec ![pyrPoint i, pyrPoint u, pyrPoint v]) ≠ 0
      unfold dot3
      simp only [Matrix.cons_val_zero, Matrix.cons_val_one, Matrix.cons_val]
      set A := areaVec ![pyrPoint a.s1, pyrPoint a.s2, pyrPoint a.s3] with hA
      rcases hperm with h | h
      · rw [h 0, h 1, h 2]
        intro hz
        exact hsum ((mul_eq_zero.1 (by linarith : σ * (A 0 + A 1 + 2 * A 2) = 0)).resolve_left hσ)
      · rw [h 0, h 1, h 2]
        intro hz
        exact hsum ((mul_eq_zero.1 (by linarith : σ * (A 0 + A 1 + 2 * A 2) = 0)).resolve_left hσ)

theorem pyr_lt : ∀ a ∈ pyrFans.attr, a.s1 < 6 ∧ a.s2 < 6 ∧ a.s3 < 6 := by
  show ∀ a ∈ twoSeeds pyrFaces 0, a.s1 < 6 ∧ a.s2 < 6 ∧ a.s3 < 6
  decide +kernel

/-- The surface is closed: every edge of the pyramid has two triangles. -/
theorem pyr_two : ∀ i, i < 6 → ∀ w, TwoTriangles pyrFans i w := by
  refine twoTriangles_check pyr_lt ?_
  show ∀ i w u : Fin 6, linkCheck (twoSeeds pyrFaces 0) i u w = true → ∃ v : Fin 6, v ≠ u ∧ linkCheck (twoSeeds pyrFaces 0) i w v = true ∧
    ∀ x : Fin 6, linkCheck (twoSeeds pyrFaces 0) i w x = true → x = u ∨ x = v
  decide +kernel

theorem pyr_fan : ∀ i, i < 6 → OneFan pyrFans i := by
  have hc : ∀ (i : Fin 6) (u x v y : Fin 6), linkCheck (twoSeeds pyrFaces 0) i u x = true → linkCheck (twoSeeds pyrFaces 0) i v y = true →
      u = v ∨ ∃ z : Fin 6, linkCheck (twoSeeds pyrFaces 0) i u z = true ∧ (z = v ∨ linkCheck (twoSeeds pyrFaces 0) i z v = true) := by decide +kernel
  rintro i hi u v ⟨x, hx⟩ ⟨y, hy⟩
  obtain ⟨h1, h2⟩ := linked_lt pyr_lt hx
  obtain ⟨h3, h4⟩ := linked_lt pyr_lt hy
  rcases hc ⟨i, hi⟩ ⟨u, h1⟩ ⟨x, h2⟩ ⟨v, h3⟩ ⟨y, h4⟩ ((linked_iff _ _ _ _).1 hx) ((linked_iff _ _ _ _).1 hy) with h | ⟨z, hz, h | h⟩
  · cases h; exact Relation.ReflTransGen.refl
  · cases h; exact Relation.ReflTransGen.single ((linked_iff _ _ _ _).2 hz)
  · exact (Relation.ReflTransGen.single ((linked_iff pyrFans i u z).2 hz)).tail ((linked_iff _ _ _ _).2 h)

theorem pyr_linked (u : Nat) (h : FanLinked pyrFans 2 3 u) : u < 2 := by
  have hc : ∀ u : Fin 6, linkCheck (twoSeeds pyrFaces 0) 2 3 u = true → u.val < 2 := by decide +kernel
  obtain ⟨-, h2⟩ := linked_lt pyr_lt h
  exact hc ⟨u, h2⟩ ((linked_iff _ _ _ _).1 h)

/-- The two seeds of the third triangle of the base, one below and one above it, get the same region, whatever the exterior seed is. -/
example (k k' e : Nat) (he : e < 16) :
    ∃ G c g reg nr, linkSpheres 6 6 pyrFans.attr 0 { rows := none, cap := k } = some G ∧
      colourSpheres pyrFans 2 16 G 3 (fun _ => 0) { rows := none, cap := k' } = some (c, g) ∧ colourSeeds g 16 e = some (reg, nr) ∧ reg 4 = reg 5 ∧ pyrFans.seed 4 2 < 0 ∧ 0 < pyrFans.seed 5 2 := by
  obtain ⟨G, c, g, reg, nr, h1, h2, h3, h4, -⟩ := C85_leak_bug pyrFans 2 1 6 6 16 k k' pyr_paired (by omega) (by omega) (by simp [pyrFans, pyrFaces, twoSeeds])
    pyr_lt (fun i hi => pyr_two i (by omega)) (fun i hi => pyr_fan i (by omega))
    (fun i h1 h2 _ => ⟨3, 0, by omega, by
      obtain rfl : i = 2 := by omega
      exact ⟨0, ⟨1, 0, 2, 3⟩, rfl, by decide⟩⟩) 2 3 le_rfl (by omega)
    (fun l hl hmem => by
      have h0 : 0 ∈ l := (hmem 0).2 ⟨0, 3, ⟨1, 0, 2, 3⟩, rfl, by decide⟩
      cases l with
      | nil => simp at h0
      | cons x l =>
        have hx : x = 0 := by
          rcases List.mem_cons.1 h0 with e | e
          · exact e.symm
          · have := (List.pairwise_cons.1 hl).1 0 e
            omega
        subst hx
        rfl)
    ⟨0, 0, ⟨1, 0, 2, 3⟩, rfl, by decide⟩ (fun j hj => pyr_linked j hj) 4 5 4 5 ⟨⟨5, 2, 4, 5⟩, rfl, by decide⟩ ⟨⟨5, 2, 4, 5⟩, rfl, rfl⟩ (by omega) (by omega) e
    (by simpa [pyrFans, pyrFaces, twoSeeds] using he)
  refine ⟨G, c, g, reg, nr, h1, h2, h3, h4, ?_, ?_⟩ <;> simp [pyrFans, pyrFaces, twoSeeds, pyrPoint, Fin.ofNat] <;> norm_num

end VoroCrust
