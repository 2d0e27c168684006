import Verif.Model.Graph
import Mathlib.Data.List.Nodup

/-! # Property C10: the connectivity graph -/

set_option linter.unusedSimpArgs false

namespace VoroCrust

/-! ## Specification: the set of requested pairs -/

/-- `i → j` was requested by the history (given point count `n` at the start), after the last reset, at a
moment when `i` was a valid point. -/
def Requested (i j : Nat) : List GraphOp → Nat → Bool → Bool
  | [], _, acc => acc
  | .grow n _ :: ops, _, acc => Requested i j ops n acc
  | .connect a b :: ops, n, acc => Requested i j ops n (acc || (((a == i && b == j) || (b == i && a == j)) && decide (i < n)))
  | .connectOneWay a b :: ops, n, acc => Requested i j ops n (acc || ((a == i && b == j) && decide (i < n)))
  | .reset :: ops, n, acc => Requested i j ops n (if n = 0 then acc else false)

/-- Point count and capacity never shrink and points fit the capacity. -/
def Growing : List GraphOp → Nat → Nat → Prop
  | [], _, _ => True
  | .grow n' c' :: ops, n, c => n ≤ n' ∧ c ≤ c' ∧ n' ≤ c' ∧ Growing ops n' c'
  | _ :: ops, n, c => Growing ops n c

/-- The stored neighbours of `i` (empty when there is no list). -/
def storedNeighbors (g : Graph) (i : Nat) : List Nat := ((graphNeighbors g i).getD none).getD []

/-! ## Invariant -/

theorem scan_iff (e : EdgeList) (j k : Nat) : e.scan j k = true ↔ j ∈ (List.range k).map e.cells := by
  induction k with
  | zero => simp [EdgeList.scan]
  | succ k ih =>
    simp only [EdgeList.scan, Bool.or_eq_true, ih, List.range_succ, List.map_append, List.mem_append, List.map_cons,
      List.map_nil, List.mem_singleton, beq_iff_eq]
    rw [eq_comm (a := j)]

structure EdgeList.Inv (e : EdgeList) : Prop where
  room : e.num < e.cap
  nodup : ((List.range e.num).map e.cells).Nodup

def Graph.row (g : Graph) (i : Nat) : Option EdgeList :=
  match g.rows with
  | none => none
  | some rows => if i < g.cap then rows i else none

structure Graph.Inv (c : Nat) (g : Graph) (R : Nat → Nat → Prop) : Prop where
  cap : g.rows ≠ none → g.cap ≤ c
  rows : ∀ i e, g.row i = some e → e.Inv
  rel : ∀ i j, j ∈ storedNeighbors g i ↔ R i j

theorem storedNeighbors_eq (g : Graph) (i : Nat) :
    storedNeighbors g i = match g.row i with | none => [] | some e => (List.range e.num).map e.cells := by
  unfold storedNeighbors graphNeighbors Graph.row
  cases h : g.rows with
  | none => simp
  | some rows =>
    by_cases hi : i < g.cap
    · simp only [hi, if_true]; cases rows i <;> simp
    · simp only [hi, if_false]; simp

/-- Appending to a list in the graph. -/
theorem graphConnect_spec {n c : Nat} {g : Graph} {R : Nat → Nat → Prop} (h : g.Inv c R) (hnc : n ≤ c) (i j : Nat) :
    ∃ code g', graphConnect n c g i j = some (code, g') ∧ g'.Inv c (fun a b => R a b ∨ (a = i ∧ b = j ∧ i < n)) := by
  by_cases hi : n ≤ i
  · refine ⟨1, g, by simp [graphConnect, hi], h.cap, h.rows, ?_⟩
    intro a b; rw [h.rel]; constructor
    · exact Or.inl
    · rintro (h1 | ⟨_, _, h3⟩)
      · exact h1
      · omega
  · -- the enlarged row table
    have hi' : i < n := by omega
    obtain ⟨rows, hg1, hrow⟩ : ∃ rows, g.enlarge c = { rows := some rows, cap := c } ∧ ∀ k, k < c → rows k = g.row k := by
      unfold Graph.enlarge
      cases hr : g.rows with
      | none => exact ⟨_, rfl, fun k hk => by simp [Graph.row, hr]⟩
      | some rows =>
        have hcap := h.cap (by simp [hr])
        by_cases hc : g.cap < c
        · exact ⟨_, by simp [hc]; rfl, fun k hk => by simp [Graph.row, hr]⟩
        · have hce : g.cap = c := by omega
          refine ⟨rows, ?_, fun k hk => by simp [Graph.row, hr, hce, hk]⟩
          simp only [hc, if_false]
          cases g; simp_all
    have hic : i < c := by omega
    -- rows outside `c` are empty
    have hout : ∀ k, ¬ k < c → g.row k = none := by
      intro k hk
      unfold Graph.row
      cases hr : g.rows with
      | none => rfl
      | some rows => have := h.cap (by simp [hr]); simp; omega
    set rows' : Nat → Option EdgeList := ensureRow rows i with hrows'
    -- the list of `i`
    obtain ⟨e, he, hei, hel⟩ : ∃ e, rows' i = some e ∧ e.Inv ∧ (List.range e.num).map e.cells = storedNeighbors g i := by
      cases hri : rows i with
      | none =>
        refine ⟨{ cells := fun _ => 0, num := 0, cap := 10 }, by simp [hrows', ensureRow, hri, upd], ⟨by simp, by simp⟩, ?_⟩
        rw [storedNeighbors_eq, ← hrow i hic, hri]; simp
      | some e =>
        refine ⟨e, by simp [hrows', ensureRow, hri], h.rows i e (by rw [← hrow i hic, hri]), ?_⟩
        rw [storedNeighbors_eq, ← hrow i hic, hri]
    have hother : ∀ k, k ≠ i → rows' k = rows k := by
      intro k hk
      cases hri : rows i <;> simp [hrows', ensureRow, hri, upd, hk]
    have hscan := scan_iff e j e.num
    rw [hel, h.rel] at hscan
    have hcon : graphConnected { rows := some rows', cap := c } i j = some (e.scan j e.num) := by
      have := hei.room
      simp [graphConnected, he, Nat.not_le.2 hic, Nat.le_of_lt this]
    have rowEq : ∀ (rw' : Nat → Option EdgeList) (k : Nat), Graph.row { rows := some rw', cap := c } k = if k < c then rw' k else none := by
      intro rw' k; rfl
    by_cases hs : e.scan j e.num = true
    · refine ⟨1, { rows := some rows', cap := c }, ?_, fun _ => Nat.le_refl _, ?_, ?_⟩
      · simp only [graphConnect, hi, if_false, hg1, hic, if_true, ← hrows', hcon, hs]
      · intro k e' hk
        rw [rowEq] at hk
        split at hk
        · rename_i hkc
          by_cases hki : k = i
          · subst hki; rw [he] at hk; cases hk; exact hei
          · rw [hother k hki, hrow k hkc] at hk; exact h.rows k e' hk
        · cases hk
      · intro a b
        have : storedNeighbors { rows := some rows', cap := c } a = storedNeighbors g a := by
          rw [storedNeighbors_eq, rowEq]
          by_cases hac : a < c
          · by_cases hai : a = i
            · subst hai; simp only [hac, if_true, he, hel]
            · rw [if_pos hac, hother a hai, hrow a hac, storedNeighbors_eq]
          · rw [if_neg hac, storedNeighbors_eq, hout a hac]
        rw [this, h.rel]
        constructor
        · exact Or.inl
        · rintro (h1 | ⟨rfl, rfl, _⟩)
          · exact h1
          · exact hscan.1 hs
    · have hs' : e.scan j e.num = false := by simpa using hs
      set e1 : EdgeList := { e with cells := upd e.cells e.num j, num := e.num + 1 } with he1
      set e2 : EdgeList := if e1.num = e1.cap then { e1 with cap := 2 * e1.cap } else e1 with he2
      have hnum : e2.num = e.num + 1 := by
        rw [he2]; split <;> rfl
      have hcells : e2.cells = upd e.cells e.num j := by
        rw [he2]; split <;> rfl
      have hlist : (List.range e2.num).map e2.cells = (List.range e.num).map e.cells ++ [j] := by
        rw [hnum, hcells, List.range_succ, List.map_append]
        congr 1
        · apply List.map_congr_left
          intro k hk
          have := List.mem_range.1 hk
          simp [upd, Nat.ne_of_lt this]
        · simp [upd]
      have hroom := hei.room
      have he2i : e2.Inv := by
        refine ⟨?_, ?_⟩
        · rw [he2]
          split
          · rename_i hh; simp only [he1] at hh ⊢; omega
          · rename_i hh; simp only [he1] at hh ⊢; omega
        · rw [hlist]
          refine List.Nodup.append hei.nodup (by simp) ?_
          rw [List.disjoint_singleton, hel, h.rel]
          exact fun hR => hs (hscan.2 hR)
      refine ⟨0, { rows := some (upd rows' i (some e2)), cap := c }, ?_, fun _ => Nat.le_refl _, ?_, ?_⟩
      · simp only [graphConnect, hi, if_false, hg1, hic, if_true, ← hrows', hcon, hs', he]
        rw [if_pos hroom]
      · intro k e' hk
        rw [rowEq] at hk
        split at hk
        · rename_i hkc
          by_cases hki : k = i
          · subst hki; simp only [upd, if_true] at hk; cases hk; exact he2i
          · simp only [upd, hki, if_false] at hk
            rw [hother k hki, hrow k hkc] at hk; exact h.rows k e' hk
        · cases hk
      · intro a b
        rw [storedNeighbors_eq, rowEq]
        by_cases hac : a < c
        · by_cases hai : a = i
          · subst hai
            simp only [hac, if_true, upd, hlist, hel, List.mem_append, List.mem_singleton, h.rel, true_and, hi', and_true]
          · rw [if_pos hac]
            simp only [upd, hai, if_false]
            rw [hother a hai, hrow a hac, ← storedNeighbors_eq, h.rel]
            simp [hai]
        · have : a ≠ i := by omega
          have := h.rel a b
          rw [storedNeighbors_eq, hout a hac] at this
          rw [if_neg hac]
          simp only [List.not_mem_nil, false_iff] at this ⊢
          rintro (h1 | ⟨h2, _⟩)
          · exact this h1
          · omega

theorem Graph.Inv.congr {c : Nat} {g : Graph} {R S : Nat → Nat → Prop} (h : g.Inv c R) (hRS : ∀ a b, R a b ↔ S a b) : g.Inv c S :=
  ⟨h.cap, h.rows, fun i j => (h.rel i j).trans (hRS i j)⟩

theorem runGraph_spec (ops : List GraphOp) (n c : Nat) (g : Graph) (acc : Nat → Nat → Bool) (hnc : n ≤ c)
    (hg : Growing ops n c) (h : g.Inv c (fun a b => acc a b = true)) :
    ∃ n' c' g', runGraph ops (n, c, g) = some (n', c', g') ∧
      g'.Inv c' (fun a b => Requested a b ops n (acc a b) = true) := by
  induction ops generalizing n c g acc with
  | nil => exact ⟨n, c, g, rfl, h⟩
  | cons op ops ih =>
    cases op with
    | grow n1 c1 =>
      simp only [Growing] at hg
      exact ih n1 c1 g acc hg.2.2.1 hg.2.2.2 ⟨fun hh => Nat.le_trans (h.cap hh) hg.2.1, h.rows, h.rel⟩
    | connect i j =>
      simp only [Growing] at hg
      obtain ⟨c1, g1, e1, h1⟩ := graphConnect_spec h hnc i j
      obtain ⟨c2, g2, e2, h2⟩ := graphConnect_spec h1 hnc j i
      obtain ⟨n', c', g', e, h'⟩ := ih n c g2 (fun a b => acc a b || (((i == a && j == b) || (j == a && i == b)) && decide (a < n))) hnc hg
        (h2.congr (fun a b => by
          simp only [Bool.or_eq_true, Bool.and_eq_true, beq_iff_eq, decide_eq_true_eq]
          constructor
          · rintro ((h | ⟨rfl, rfl, h⟩) | ⟨rfl, rfl, h⟩)
            · exact Or.inl h
            · exact Or.inr ⟨Or.inl ⟨rfl, rfl⟩, h⟩
            · exact Or.inr ⟨Or.inr ⟨rfl, rfl⟩, h⟩
          · rintro (h | ⟨⟨rfl, rfl⟩ | ⟨rfl, rfl⟩, h⟩)
            · exact Or.inl (Or.inl h)
            · exact Or.inl (Or.inr ⟨rfl, rfl, h⟩)
            · exact Or.inr ⟨rfl, rfl, h⟩))
      refine ⟨n', c', g', ?_, h'⟩
      simp only [runGraph, graphConnectNodes, e1, e2, Option.map_some]; exact e
    | connectOneWay i j =>
      simp only [Growing] at hg
      obtain ⟨c1, g1, e1, h1⟩ := graphConnect_spec h hnc i j
      obtain ⟨n', c', g', e, h'⟩ := ih n c g1 (fun a b => acc a b || ((i == a && j == b) && decide (a < n))) hnc hg
        (h1.congr (fun a b => by
          simp only [Bool.or_eq_true, Bool.and_eq_true, beq_iff_eq, decide_eq_true_eq]
          constructor
          · rintro (h | ⟨rfl, rfl, h⟩)
            · exact Or.inl h
            · exact Or.inr ⟨⟨rfl, rfl⟩, h⟩
          · rintro (h | ⟨⟨rfl, rfl⟩, h⟩)
            · exact Or.inl h
            · exact Or.inr ⟨rfl, rfl, h⟩))
      refine ⟨n', c', g', ?_, h'⟩
      simp only [runGraph, e1]; exact e
    | reset =>
      simp only [Growing] at hg
      by_cases hn : n = 0
      · obtain ⟨n', c', g', e, h'⟩ := ih n c g acc hnc hg h
        refine ⟨n', c', g', by simp only [runGraph, graphReset, hn, if_true]; rw [hn] at e; exact e, ?_⟩
        simp only [Requested, hn, if_true]; rw [hn] at h'; exact h'
      · obtain ⟨n', c', g', e, h'⟩ := ih n c { g with rows := none } (fun _ _ => false) hnc hg
          ⟨fun hh => absurd rfl hh, fun i e he => by simp [Graph.row] at he, fun i j => by simp [storedNeighbors_eq, Graph.row]⟩
        refine ⟨n', c', g', by simp only [runGraph, graphReset, hn, if_false]; exact e, ?_⟩
        simp only [Requested, hn, if_false]; exact h'

/-- **C10.** For every history of point additions, connections and resets, starting from a tree without
graph, no access leaves its allocation; the neighbour list of `i` holds exactly the indices `j` for which
`i → j` was requested (while `i` was a valid point) since the last reset, each once; and
`graph_connected` decides that relation. -/
theorem C10_graph_history (ops : List GraphOp) (hg : Growing ops 0 0) :
    ∃ n c g, runGraph ops (0, 0, { rows := none, cap := 0 }) = some (n, c, g) ∧
      (∀ i j, j ∈ storedNeighbors g i ↔ Requested i j ops 0 false = true) ∧
      (∀ i, (storedNeighbors g i).Nodup) ∧
      (∀ i j, graphConnected g i j = some (Requested i j ops 0 false)) := by
  obtain ⟨n, c, g, e, h⟩ := runGraph_spec ops 0 0 { rows := none, cap := 0 } (fun _ _ => false) (Nat.le_refl _) hg
    ⟨fun hh => absurd rfl hh, fun i e he => by simp [Graph.row] at he, fun i j => by simp [storedNeighbors_eq, Graph.row]⟩
  refine ⟨n, c, g, e, h.rel, ?_, ?_⟩
  · intro i
    rw [storedNeighbors_eq]
    cases hr : g.row i with
    | none => simp
    | some e => exact (h.rows i e hr).nodup
  · intro i j
    have hrel := h.rel i j
    rw [storedNeighbors_eq] at hrel
    have key : ∀ b : Bool, (b = true ↔ Requested i j ops 0 false = true) → some b = some (Requested i j ops 0 false) := by
      intro b hb
      cases b <;> cases hq : Requested i j ops 0 false <;> simp_all
    unfold graphConnected
    cases hr : g.rows with
    | none => simp only [Graph.row, hr] at hrel; exact key _ (by simpa using hrel)
    | some rows =>
      by_cases hi : g.cap ≤ i
      · simp only [hi, if_true]
        simp only [Graph.row, hr, Nat.not_lt.2 hi, if_false] at hrel; exact key _ (by simpa using hrel)
      · simp only [hi, if_false]
        have hrow : g.row i = rows i := by simp [Graph.row, hr, Nat.not_le.1 hi]
        rw [hrow] at hrel
        cases hri : rows i with
        | none => rw [hri] at hrel; exact key _ (by simpa using hrel)
        | some e =>
          rw [hri] at hrel
          have hei := h.rows i e (by rw [hrow, hri])
          simp only [Nat.le_of_lt hei.room, if_true]
          exact key _ ((scan_iff e j e.num).trans hrel)

/-- Symmetric histories: without one-way connections and with all indices valid when connected, the
neighbour relation is symmetric. -/
def TwoWayValid : List GraphOp → Nat → Prop
  | [], _ => True
  | .grow n _ :: ops, _ => TwoWayValid ops n
  | .connect i j :: ops, n => i < n ∧ j < n ∧ TwoWayValid ops n
  | .connectOneWay _ _ :: _, _ => False
  | .reset :: ops, n => TwoWayValid ops n

theorem Requested_symm (ops : List GraphOp) (n i j : Nat) (acc : Bool) (h : TwoWayValid ops n) :
    Requested i j ops n acc = Requested j i ops n acc := by
  induction ops generalizing n acc with
  | nil => rfl
  | cons op ops ih =>
    cases op with
    | grow n1 c1 => exact ih n1 acc h
    | connect a b =>
      simp only [Requested]
      rw [ih _ _ h.2.2]
      congr 1
      congr 1
      obtain ⟨ha, hb, _⟩ := h
      rw [Bool.eq_iff_iff]
      simp only [Bool.or_eq_true, Bool.and_eq_true, beq_iff_eq, decide_eq_true_eq]
      constructor
      · rintro ⟨⟨rfl, rfl⟩ | ⟨rfl, rfl⟩, _⟩
        · exact ⟨Or.inr ⟨rfl, rfl⟩, hb⟩
        · exact ⟨Or.inl ⟨rfl, rfl⟩, ha⟩
      · rintro ⟨⟨rfl, rfl⟩ | ⟨rfl, rfl⟩, _⟩
        · exact ⟨Or.inr ⟨rfl, rfl⟩, hb⟩
        · exact ⟨Or.inl ⟨rfl, rfl⟩, ha⟩
    | connectOneWay a b => exact absurd h (by simp [TwoWayValid])
    | reset => exact ih n _ h

/-- **C10, symmetry.** -/
theorem C10_graph_symmetric (ops : List GraphOp) (hg : Growing ops 0 0) (ht : TwoWayValid ops 0) :
    ∃ n c g, runGraph ops (0, 0, { rows := none, cap := 0 }) = some (n, c, g) ∧
      ∀ i j, j ∈ storedNeighbors g i ↔ i ∈ storedNeighbors g j := by
  obtain ⟨n, c, g, e, h, _, _⟩ := C10_graph_history ops hg
  refine ⟨n, c, g, e, fun i j => ?_⟩
  rw [h, h, Requested_symm ops 0 i j false ht]

-- non-vacuity: a history with growth, a repeated connection, a full list (capacity doubling) and a reset
example : Growing ([.grow 5 10, .connect 0 1, .reset, .grow 40 100] ++ (List.range 12).map (fun k => .connect 0 (k + 1)) ++ [.connect 1 0]) 0 0 ∧
    (runGraph ([.grow 5 10, .connect 0 7, .reset, .grow 40 100] ++ (List.range 12).map (fun k => .connect 0 (k + 1)) ++ [.connect 1 0])
      (0, 0, { rows := none, cap := 0 })).map (fun s => (storedNeighbors s.2.2 0, storedNeighbors s.2.2 1)) =
    some ([1, 2, 3, 4, 5, 6, 7, 8, 9, 10, 11, 12], [0]) := by
  constructor
  · simp [Growing, List.range_succ]
  · decide +kernel

end VoroCrust
