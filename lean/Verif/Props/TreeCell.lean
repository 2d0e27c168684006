import Verif.Model.TreeCell
import Mathlib.Logic.Relation
import Mathlib.Data.List.Nodup
import Mathlib.Data.List.Perm.Subperm
import Mathlib.Tactic.Ring

/-!
# Properties of the construction of a Voronoi cell in the tree (C127)
-/

namespace VoroCrust

/-! ## The list of points whose faces are still to be built -/

theorem addExtra_spec {P : Type} (seed nb : Nat) (cells : List Nat) (x : P) : ∀ (ks : List Nat) (st : List (Nat × P)), (cells ++ st.map Prod.fst).Nodup →
    ∃ ext, addExtra seed nb cells x ks st = st ++ ext ∧ (∀ e ∈ ext, e.2 = x ∧ e.1 ∈ ks ∧ e.1 ≠ seed ∧ e.1 ≠ nb) ∧ (cells ++ (st ++ ext).map Prod.fst).Nodup ∧
      ∀ k ∈ ks, k ≠ seed → k ≠ nb → k ∈ cells ++ (st ++ ext).map Prod.fst := by
  intro ks
  induction ks with
  | nil =>
    intro st h
    exact ⟨[], by simp [addExtra], by simp, by simpa using h, by simp⟩
  | cons k ks ih =>
    intro st h
    have lift : ∀ (st : List (Nat × P)), (cells ++ st.map Prod.fst).Nodup → (k = seed ∨ k = nb ∨ k ∈ cells ++ st.map Prod.fst) →
        ∃ ext, addExtra seed nb cells x ks st = st ++ ext ∧ (∀ e ∈ ext, e.2 = x ∧ e.1 ∈ k :: ks ∧ e.1 ≠ seed ∧ e.1 ≠ nb) ∧ (cells ++ (st ++ ext).map Prod.fst).Nodup ∧
          ∀ k' ∈ k :: ks, k' ≠ seed → k' ≠ nb → k' ∈ cells ++ (st ++ ext).map Prod.fst := by
      intro st h hk
      obtain ⟨ext, h1, h2, h3, h4⟩ := ih st h
      refine ⟨ext, h1, fun e he => ?_, h3, fun k' hk' a b => ?_⟩
      · obtain ⟨a, b, c⟩ := h2 e he
        exact ⟨a, List.mem_cons_of_mem _ b, c⟩
      · rcases List.mem_cons.1 hk' with q | q
        · subst q
          rcases hk with r | r | r
          · exact absurd r a
          · exact absurd r b
          · rcases List.mem_append.1 r with r | r
            · exact List.mem_append_left _ r
            · rw [List.map_append]
              exact List.mem_append_right _ (List.mem_append_left _ r)
        · exact h4 k' q a b
    unfold addExtra
    by_cases c1 : k = seed
    · rw [if_pos c1]; exact lift st h (Or.inl c1)
    · rw [if_neg c1]
      by_cases c2 : k = nb
      · rw [if_pos c2]; exact lift st h (Or.inr (Or.inl c2))
      · rw [if_neg c2]
        by_cases c3 : k ∈ cells
        · rw [if_pos c3]; exact lift st h (Or.inr (Or.inr (List.mem_append_left _ c3)))
        · rw [if_neg c3]
          by_cases c4 : k ∈ st.map Prod.fst
          · rw [if_pos c4]; exact lift st h (Or.inr (Or.inr (List.mem_append_right _ c4)))
          · rw [if_neg c4]
            have hn : (cells ++ (st ++ [(k, x)]).map Prod.fst).Nodup := by
              rw [List.map_append, ← List.append_assoc]
              refine List.Nodup.append h (by simp) ?_
              intro a ha hb
              have : a = k := by simpa using hb
              subst this
              rcases List.mem_append.1 ha with q | q
              · exact c3 q
              · exact c4 q
            obtain ⟨ext, h1, h2, h3, h4⟩ := lift (st ++ [(k, x)]) hn (Or.inr (Or.inr (by simp)))
            refine ⟨(k, x) :: ext, ?_, ?_, ?_, ?_⟩
            · rw [h1]; simp
            · intro e he
              rcases List.mem_cons.1 he with q | q
              · subst q; exact ⟨rfl, by simp, c1, c2⟩
              · exact h2 e q
            · simpa using h3
            · simpa using h4

theorem addCorners_spec {P : Type} (near : P → List Nat) (seed nb : Nat) (cells : List Nat) : ∀ (xs : List P) (st : List (Nat × P)), (cells ++ st.map Prod.fst).Nodup →
    ∃ ext, addCorners near seed nb cells xs st = st ++ ext ∧ (∀ e ∈ ext, e.2 ∈ xs ∧ e.1 ∈ near e.2 ∧ e.1 ≠ seed ∧ e.1 ≠ nb) ∧ (cells ++ (st ++ ext).map Prod.fst).Nodup ∧
      ∀ x ∈ xs, ∀ k ∈ near x, k ≠ seed → k ≠ nb → k ∈ cells ++ (st ++ ext).map Prod.fst := by
  intro xs
  induction xs with
  | nil =>
    intro st h
    exact ⟨[], by simp [addCorners], by simp, by simpa using h, by simp⟩
  | cons x xs ih =>
    intro st h
    obtain ⟨e1, a1, a2, a3, a4⟩ := addExtra_spec seed nb cells x (near x) st h
    obtain ⟨e2, b1, b2, b3, b4⟩ := ih (st ++ e1) a3
    refine ⟨e1 ++ e2, ?_, ?_, ?_, ?_⟩
    · unfold addCorners
      rw [a1, b1, List.append_assoc]
    · intro e he
      rcases List.mem_append.1 he with q | q
      · obtain ⟨r1, r2, r3⟩ := a2 e q
        exact ⟨by rw [r1]; simp, by rw [r1]; exact r2, r3⟩
      · obtain ⟨r1, r2⟩ := b2 e q
        exact ⟨List.mem_cons_of_mem _ r1, r2⟩
    · rw [← List.append_assoc st]; exact b3
    · intro y hy k hk c1 c2
      rw [← List.append_assoc st]
      rcases List.mem_cons.1 hy with q | q
      · subst q
        rcases List.mem_append.1 (a4 k hk c1 c2) with r | r
        · exact List.mem_append_left _ r
        · rw [List.map_append]
          exact List.mem_append_right _ (List.mem_append_left _ r)
      · exact b4 y q k hk c1 c2

theorem dropExtra_noop {P : Type} (nb : Nat) (st : List (Nat × P)) (h : nb ∉ st.map Prod.fst) : ∀ fuel i : Nat, dropExtra nb fuel i st = st := by
  intro fuel
  induction fuel with
  | zero => intro i; rfl
  | succ fuel ih =>
    intro i
    unfold dropExtra
    cases hq : st[i]? with
    | none => rfl
    | some e =>
      have hm : e ∈ st := List.mem_of_getElem? hq
      simp only []
      rw [if_neg (fun q : e.1 = nb => h (q ▸ List.mem_map_of_mem hm))]
      exact ih (i + 1)

/-! ## The invariant -/

/-- How a face comes to be built: as the first, with the closest point, or from a corner of an earlier face. -/
def CellOrigin {P : Type} (near : P → List Nat) (j0 : Nat) (x0 : P) (before : List (Nat × P × CellFace P)) (k : Nat) (x : P) : Prop :=
  (before = [] ∧ k = j0 ∧ x = x0) ∨ ∃ c ∈ before, x ∈ c.2.2.corners ∧ k ∈ near x

structure CellInv {P : Type} (n : Nat) (face : Nat → P → CellFace P) (near : P → List Nat) (seed j0 : Nat) (x0 : P) (extra : List Nat) (cells : List (Nat × P × CellFace P)) (st : List (Nat × P)) : Prop where
  nd : (cells.map Prod.fst ++ (extra ++ st.map Prod.fst)).Nodup
  sd : seed ∉ cells.map Prod.fst ++ (extra ++ st.map Prod.fst)
  lt : ∀ k ∈ cells.map Prod.fst ++ (extra ++ st.map Prod.fst), k < n
  fc : ∀ e ∈ cells, e.2.2 = face e.1 e.2.1
  closed : ∀ e ∈ cells, ∀ x ∈ e.2.2.corners, ∀ k ∈ near x, k ≠ seed → k ∈ cells.map Prod.fst ++ (extra ++ st.map Prod.fst)
  found : ∀ e ∈ st, ∃ c ∈ cells, e.2 ∈ c.2.2.corners ∧ e.1 ∈ near e.2
  order : ∀ l1 e l2, cells = l1 ++ e :: l2 → CellOrigin near j0 x0 l1 e.1 e.2.1

theorem visit_inv {P : Type} (n : Nat) (face : Nat → P → CellFace P) (near : P → List Nat) (hnear : ∀ x, ∀ k ∈ near x, k < n) (seed j0 : Nat) (x0 : P) (nb : Nat) (x : P) (cells : List (Nat × P × CellFace P)) (st : List (Nat × P))
    (h : CellInv n face near seed j0 x0 [nb] cells st) (ho : CellOrigin near j0 x0 cells nb x) :
    CellInv n face near seed j0 x0 [] (visitFace face near seed nb x cells st).1 (visitFace face near seed nb x cells st).2 := by
  have hperm : (cells.map Prod.fst ++ ([nb] ++ st.map Prod.fst)).Perm (nb :: (cells.map Prod.fst ++ st.map Prod.fst)) := by
    simp [List.perm_middle]
  have hnd := hperm.nodup_iff.1 h.nd
  obtain ⟨hnb, hnd'⟩ := List.nodup_cons.1 hnd
  obtain ⟨ext, a1, a2, a3, a4⟩ := addCorners_spec near seed nb (cells.map Prod.fst) (face nb x).corners st hnd'
  have hnb' : nb ∉ (st ++ ext).map Prod.fst := by
    rw [List.map_append]
    intro q
    rcases List.mem_append.1 q with q | q
    · exact hnb (List.mem_append_right _ q)
    · obtain ⟨e, he, r⟩ := List.mem_map.1 q
      exact (a2 e he).2.2.2 r
  have hv : visitFace face near seed nb x cells st = (cells ++ [(nb, x, face nb x)], st ++ ext) := by
    unfold visitFace
    simp only []
    rw [a1, dropExtra_noop nb _ hnb']
  rw [hv]
  have hnbc : nb ∉ cells.map Prod.fst := fun q => hnb (List.mem_append_left _ q)
  have hmem : ∀ k, k ∈ (cells ++ [(nb, x, face nb x)]).map Prod.fst ++ ([] ++ (st ++ ext).map Prod.fst) ↔ k = nb ∨ k ∈ cells.map Prod.fst ++ (st ++ ext).map Prod.fst := by
    intro k
    simp only [List.map_append, List.map_cons, List.map_nil, List.nil_append, List.mem_append, List.mem_cons, List.not_mem_nil, or_false]
    tauto
  have hold : ∀ k, k ∈ cells.map Prod.fst ++ ([nb] ++ st.map Prod.fst) → k = nb ∨ k ∈ cells.map Prod.fst ++ (st ++ ext).map Prod.fst := by
    intro k
    simp only [List.map_append, List.mem_append, List.mem_cons, List.not_mem_nil, or_false]
    tauto
  have hnew : ∀ k, k ∈ cells.map Prod.fst ++ (st ++ ext).map Prod.fst → k ∈ cells.map Prod.fst ++ ([nb] ++ st.map Prod.fst) ∨ ∃ e ∈ ext, e.1 = k := by
    intro k
    simp only [List.map_append, List.mem_append, List.mem_cons, List.not_mem_nil, or_false, List.mem_map (l := ext)]
    tauto
  refine ⟨?_, ?_, ?_, ?_, ?_, ?_, ?_⟩
  · have : ((cells ++ [(nb, x, face nb x)]).map Prod.fst ++ ([] ++ (st ++ ext).map Prod.fst)).Perm (nb :: (cells.map Prod.fst ++ (st ++ ext).map Prod.fst)) := by
      simpa using (List.perm_middle (a := nb) (l₁ := cells.map Prod.fst) (l₂ := (st ++ ext).map Prod.fst))
    rw [this.nodup_iff, List.nodup_cons]
    exact ⟨fun q => by
      rcases List.mem_append.1 q with q | q
      · exact hnbc q
      · exact hnb' q, a3⟩
  · intro q
    rcases (hmem seed).1 q with q | q
    · exact h.sd (by rw [q]; simp)
    · rcases hnew seed q with q | ⟨e, he, r⟩
      · exact h.sd q
      · exact (a2 e he).2.2.1 r
  · intro k hk
    rcases (hmem k).1 hk with q | q
    · exact h.lt k (by rw [q]; simp)
    · rcases hnew k q with q | ⟨e, he, r⟩
      · exact h.lt k q
      · rw [← r]; exact hnear _ _ (a2 e he).2.1
  · intro e he
    rcases List.mem_append.1 he with q | q
    · exact h.fc e q
    · have : e = (nb, x, face nb x) := by simpa using q
      subst this; rfl
  · intro e he y hy k hk hks
    rw [hmem]
    rcases List.mem_append.1 he with q | q
    · exact hold k (h.closed e q y hy k hk hks)
    · have : e = (nb, x, face nb x) := by simpa using q
      subst this
      by_cases hkn : k = nb
      · exact Or.inl hkn
      · exact Or.inr (a4 y hy k hk hks hkn)
  · intro e he
    rcases List.mem_append.1 he with q | q
    · obtain ⟨c, hc, r⟩ := h.found e q
      exact ⟨c, List.mem_append_left _ hc, r⟩
    · obtain ⟨r1, r2, _⟩ := a2 e q
      exact ⟨(nb, x, face nb x), by simp, r1, r2⟩
  · intro l1 e l2 hl
    rcases List.eq_nil_or_concat l2 with q | ⟨l3, z, q⟩
    · subst q
      obtain ⟨q1, q2⟩ := List.append_inj' hl rfl
      have q2 : (nb, x, face nb x) = e := by simpa using q2
      subst q1; subst q2
      exact ho
    · subst q
      have : cells ++ [(nb, x, face nb x)] = (l1 ++ e :: l3) ++ [z] := by
        have hl' : cells ++ [(nb, x, face nb x)] = l1 ++ e :: l3.concat z := hl
        rw [hl']; simp
      obtain ⟨q1, _⟩ := List.append_inj' this rfl
      exact h.order l1 e l3 q1

theorem treeCellLoop_spec {P : Type} (n : Nat) (face : Nat → P → CellFace P) (near : P → List Nat) (hnear : ∀ x, ∀ k ∈ near x, k < n) (seed : Nat) (hseed : seed < n) (j0 : Nat) (x0 : P) :
    ∀ (fuel : Nat) (cells : List (Nat × P × CellFace P)) (st : List (Nat × P)), n ≤ cells.length + fuel → CellInv n face near seed j0 x0 [] cells st →
    ∃ R, treeCellLoop face near seed fuel cells st = some R ∧ (∃ l, R = cells ++ l) ∧ CellInv n face near seed j0 x0 [] R [] := by
  have hlen : ∀ (cells : List (Nat × P × CellFace P)) (st : List (Nat × P)), CellInv n face near seed j0 x0 [] cells st → cells.length < n := by
    intro cells st h
    have hnd : (seed :: (cells.map Prod.fst ++ ([] ++ st.map Prod.fst))).Nodup := List.nodup_cons.2 ⟨h.sd, h.nd⟩
    have hsub : (seed :: (cells.map Prod.fst ++ ([] ++ st.map Prod.fst))) ⊆ List.range n := by
      intro k hk
      rcases List.mem_cons.1 hk with q | q
      · rw [q]; exact List.mem_range.2 hseed
      · exact List.mem_range.2 (h.lt k q)
    have := (List.subperm_of_subset hnd hsub).length_le
    simp only [List.length_cons, List.length_append, List.length_map, List.length_nil, List.length_range] at this
    omega
  intro fuel
  induction fuel with
  | zero =>
    intro cells st hf h
    have := hlen cells st h
    omega
  | succ fuel ih =>
    intro cells st hf h
    rcases List.eq_nil_or_concat st with q | ⟨st', e, q⟩
    · subst q
      exact ⟨cells, by simp [treeCellLoop], ⟨[], by simp⟩, h⟩
    · rw [List.concat_eq_append] at q
      subst q
      have hstep : treeCellLoop face near seed (fuel + 1) cells (st' ++ [e]) = treeCellLoop face near seed fuel (visitFace face near seed e.1 e.2 cells st').1 (visitFace face near seed e.1 e.2 cells st').2 := by
        simp [treeCellLoop]
      have hpre : CellInv n face near seed j0 x0 [e.1] cells st' := by
        have hperm : (cells.map Prod.fst ++ ([] ++ (st' ++ [e]).map Prod.fst)).Perm (cells.map Prod.fst ++ ([e.1] ++ st'.map Prod.fst)) := by
          refine List.Perm.append_left _ ?_
          simpa using List.perm_append_comm (l₁ := st'.map Prod.fst) (l₂ := [e.1])
        refine ⟨hperm.nodup_iff.1 h.nd, fun q => h.sd (hperm.mem_iff.2 q), fun k hk => h.lt k (hperm.mem_iff.2 hk), h.fc, fun c hc y hy k hk hks => hperm.mem_iff.1 (h.closed c hc y hy k hk hks),
          fun c hc => h.found c (List.mem_append_left _ hc), h.order⟩
      have hinv := visit_inv n face near hnear seed j0 x0 e.1 e.2 cells st' hpre (Or.inr (h.found e (by simp)))
      have hc : (visitFace face near seed e.1 e.2 cells st').1 = cells ++ [(e.1, e.2, face e.1 e.2)] := rfl
      obtain ⟨R, hR, ⟨l, hl⟩, hI⟩ := ih _ _ (by rw [hc]; simp; omega) hinv
      refine ⟨R, by rw [hstep, hR], ⟨(e.1, e.2, face e.1 e.2) :: l, ?_⟩, hI⟩
      rw [hl, hc]; simp

/-! ## C127 -/

/-- **C127 (a).** For every tree with at least two points and all faces: the construction ends after at most as many faces as there are points; no neighbour appears twice and the seed is not among them; each neighbour comes with the
face that was built for it; the first is the closest point, and each other was found at a corner of a face that was built before; and every point found at a corner of a face is a neighbour with a face of its own. -/
theorem C127_cell {P : Type} (n : Nat) (face : Nat → P → CellFace P) (near : P → List Nat) (hnear : ∀ x, ∀ k ∈ near x, k < n) (seed closest : Nat) (hseed : seed < n) (hc : closest < n) (hne : closest ≠ seed) (mid : Nat → P) :
    ∃ R, treeCell n face near seed closest mid n = some R ∧ (R.map Prod.fst).Nodup ∧ seed ∉ R.map Prod.fst ∧ (∀ e ∈ R, e.1 < n ∧ e.2.2 = face e.1 e.2.1) ∧
      (∃ l, R = (closest, mid closest, face closest (mid closest)) :: l) ∧
      (∀ l1 e l2, R = l1 ++ e :: l2 → l1 ≠ [] → ∃ c ∈ l1, e.2.1 ∈ c.2.2.corners ∧ e.1 ∈ near e.2.1) ∧
      (∀ e ∈ R, ∀ x ∈ e.2.2.corners, ∀ k ∈ near x, k ≠ seed → k ∈ R.map Prod.fst) := by
  have hinv := visit_inv n face near hnear seed closest (mid closest) closest (mid closest) [] []
    ⟨by simp, by simpa using hne.symm, by simpa using hc, by simp, by simp, by simp, fun l1 e l2 h => by simp at h⟩ (Or.inl ⟨rfl, rfl, rfl⟩)
  obtain ⟨R, hR, ⟨l, hl⟩, h⟩ := treeCellLoop_spec n face near hnear seed hseed closest (mid closest) n _ _ (by omega) hinv
  refine ⟨R, ?_, by simpa using h.nd, by simpa using h.sd, fun e he => ⟨h.lt e.1 ?_, h.fc e he⟩, ⟨l, ?_⟩, ?_, ?_⟩
  · unfold treeCell
    rw [if_pos hc]
    exact hR
  · exact List.mem_append_left _ (List.mem_map_of_mem he)
  · rw [hl]; rfl
  · intro l1 e l2 hR hl1
    rcases h.order l1 e l2 hR with q | q
    · exact absurd q.1 hl1
    · exact q
  · intro e he x hx k hk hks
    have := h.closed e he x hx k hk hks
    simpa using this

/-- **C127 (b).** Where the face with a point does not depend on the point of it the construction starts from, as is the case for the face of a Voronoi cell: the neighbours are exactly the points that can be reached from the closest
one by going from a point to those found at the corners of its face. -/
theorem C127_reached {P : Type} (n : Nat) (face : Nat → P → CellFace P) (near : P → List Nat) (hnear : ∀ x, ∀ k ∈ near x, k < n) (seed closest : Nat) (hseed : seed < n) (hc : closest < n) (hne : closest ≠ seed) (mid : Nat → P)
    (hface : ∀ j x y, face j x = face j y) :
    ∃ R, treeCell n face near seed closest mid n = some R ∧
      ∀ k, k ∈ R.map Prod.fst ↔ Relation.ReflTransGen (fun a b => b ≠ seed ∧ ∃ x ∈ (face a (mid a)).corners, b ∈ near x) closest k := by
  obtain ⟨R, hR, hnd, hs, hf, ⟨l, hl⟩, ho, hcl⟩ := C127_cell n face near hnear seed closest hseed hc hne mid
  refine ⟨R, hR, fun k => ⟨fun hk => ?_, fun hk => ?_⟩⟩
  · have key : ∀ (m : Nat) (l1 : List (Nat × P × CellFace P)) (e : Nat × P × CellFace P) (l2 : List (Nat × P × CellFace P)), l1.length ≤ m → R = l1 ++ e :: l2 →
        Relation.ReflTransGen (fun a b => b ≠ seed ∧ ∃ x ∈ (face a (mid a)).corners, b ∈ near x) closest e.1 := by
      intro m
      induction m with
      | zero =>
        intro l1 e l2 hm hq
        have : l1 = [] := List.length_eq_zero_iff.1 (by omega)
        subst this
        rw [hl] at hq
        have : (closest, mid closest, face closest (mid closest)) = e := (List.cons.inj hq).1
        rw [← this]
      | succ m ih =>
        intro l1 e l2 hm hq
        by_cases hl1 : l1 = []
        · exact ih l1 e l2 (by rw [hl1]; simp) hq
        · obtain ⟨c, hcm, hx, hk⟩ := ho l1 e l2 hq hl1
          obtain ⟨s, t, hst⟩ := List.append_of_mem hcm
          have hRc : R = s ++ c :: (t ++ e :: l2) := by rw [hq, hst]; simp
          have hlen : s.length ≤ m := by
            rw [hst] at hm
            simp at hm
            omega
          have hce := (hf c (by rw [hRc]; simp)).2
          refine Relation.ReflTransGen.tail (ih s c _ hlen hRc) ⟨?_, e.2.1, ?_, hk⟩
          · intro q
            exact hs (q ▸ List.mem_map_of_mem (show e ∈ R by rw [hq]; simp))
          · rw [hce, hface c.1 c.2.1 (mid c.1)] at hx
            exact hx
    obtain ⟨e, he, q⟩ := List.mem_map.1 hk
    obtain ⟨s, t, hst⟩ := List.append_of_mem he
    rw [← q]
    exact key s.length s e t (le_refl _) hst
  · induction hk with
    | refl => rw [hl]; simp
    | tail _ hstep ih =>
      obtain ⟨hb, x, hx, hk⟩ := hstep
      obtain ⟨e, he, q⟩ := List.mem_map.1 ih
      refine hcl e he x ?_ _ hk hb
      rw [(hf e he).2, hface e.1 e.2.1 (mid e.1), q]
      exact hx

/-- **C127 (c).** The volume is that of the pyramids over the faces, and `DBL_MAX` exactly where a face has no bounded area. -/
theorem C127_volume {P : Type} (R : List (Nat × P × CellFace P)) :
    ((∃ e ∈ R, e.2.2.area = none) → treeCellVolume R (some 0) = none) ∧
    ((∀ e ∈ R, e.2.2.area ≠ none) → treeCellVolume R (some 0) = some ((R.map fun e => e.2.2.area.getD 0 * e.2.2.height / 3).sum)) := by
  have h1 : ∀ R : List (Nat × P × CellFace P), treeCellVolume R none = none := by
    intro R
    induction R with
    | nil => rfl
    | cons e R ih =>
      unfold treeCellVolume
      cases e.2.2.area <;> exact ih
  have h2 : ∀ (R : List (Nat × P × CellFace P)) (v : Option ℝ), (∃ e ∈ R, e.2.2.area = none) → treeCellVolume R v = none := by
    intro R
    induction R with
    | nil => intro v h; simp at h
    | cons e R ih =>
      intro v h
      unfold treeCellVolume
      cases ha : e.2.2.area with
      | none => exact h1 R
      | some a =>
        obtain ⟨e', he', q⟩ := h
        rcases List.mem_cons.1 he' with r | r
        · rw [r, ha] at q; simp at q
        · exact ih _ ⟨e', r, q⟩
  have h3 : ∀ (R : List (Nat × P × CellFace P)) (v : ℝ), (∀ e ∈ R, e.2.2.area ≠ none) → treeCellVolume R (some v) = some (v + (R.map fun e => e.2.2.area.getD 0 * e.2.2.height / 3).sum) := by
    intro R
    induction R with
    | nil => intro v _; simp [treeCellVolume]
    | cons e R ih =>
      intro v h
      unfold treeCellVolume
      cases ha : e.2.2.area with
      | none => exact absurd ha (h e (by simp))
      | some a =>
        simp only [Option.map_some]
        rw [ih _ fun e' he' => h e' (List.mem_cons_of_mem _ he')]
        simp only [List.map_cons, List.sum_cons, ha, Option.getD_some]
        congr 1
        ring
  refine ⟨h2 R _, fun h => ?_⟩
  rw [h3 R 0 h, zero_add]

/-! ## Examples -/

/-- Four points around the seed 0, each face with two corners at which the next and the previous point are found. -/
def exCellFace (j : Nat) (_ : Nat) : CellFace Nat := ⟨[2 * j, 2 * j + 1], some 1, 3⟩

def exCellNear (x : Nat) : List Nat := if x % 2 = 0 then [0, x / 2, x / 2 % 4 + 1] else [0, x / 2 % 4, (x / 2 + 2) % 4 + 1]

example : (treeCell 5 exCellFace (fun x => (exCellNear x).filter (· < 5)) 0 1 (fun _ => 0) 5).map (List.map Prod.fst) = some [1, 4, 3, 2] := by decide +kernel

example : ∃ R, treeCell 5 exCellFace (fun x => (exCellNear x).filter (· < 5)) 0 1 (fun _ => 0) 5 = some R ∧ (R.map Prod.fst).Nodup := by
  obtain ⟨R, h1, h2, _⟩ := C127_cell 5 exCellFace (fun x => (exCellNear x).filter (· < 5)) (fun x k hk => by simpa using (List.mem_filter.1 hk).2) 0 1 (by omega) (by omega) (by omega) (fun _ => 0)
  exact ⟨R, h1, h2⟩

/-- In a tree with one point the code reads past the points. -/
example : treeCell 1 exCellFace exCellNear 0 1 (fun _ => 0) 5 = none := by decide +kernel

end VoroCrust
