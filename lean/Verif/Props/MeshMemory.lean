import Verif.Model.MeshMemory
import Verif.Props.FrontMemory

/-!
# Properties of the memory of the explicit mesh (C136)
-/

namespace VoroCrust

/-- A step that allocates `k` blocks and frees blocks that are there. -/
theorem step_ok (h : Heap) (k : Nat) (l : List Nat) (H : HeapOk h) (hc : ∀ a, l.count a ≤ (freshIds h.next k).count a + h.live.count a) :
    ∃ h', h.step k l = some h' ∧ HeapOk h' ∧ ∀ a, h'.live.count a + l.count a = (freshIds h.next k).count a + h.live.count a := by
  obtain ⟨r, hr, Hr, cr⟩ := heap_step h k l H hc
  refine ⟨⟨h.next + k, r⟩, ?_, Hr, cr⟩
  unfold Heap.step
  rw [hr]

/-- A step that frees `l`, which are among the blocks. -/
theorem step_free (h : Heap) (l base : List Nat) (H : HeapOk h) (hc : ∀ a, h.live.count a = l.count a + base.count a) :
    ∃ h', h.step 0 l = some h' ∧ HeapOk h' ∧ ∀ a, h'.live.count a = base.count a := by
  obtain ⟨h', e, H', c'⟩ := step_ok h 0 l H (fun a => by have := hc a; omega)
  refine ⟨h', e, H', fun a => ?_⟩
  have h1 := c' a
  have h2 := hc a
  have h3 : (freshIds h.next 0).count a = 0 := rfl
  omega

/-- A step that only allocates. -/
theorem step_alloc (h : Heap) (k : Nat) (H : HeapOk h) : ∃ h', h.step k [] = some h' ∧ HeapOk h' ∧ ∀ a, h'.live.count a = (freshIds h.next k).count a + h.live.count a := by
  obtain ⟨h', e, H', c'⟩ := step_ok h k [] H (fun a => by rw [List.count_nil]; omega)
  exact ⟨h', e, H', fun a => c' a⟩

theorem growCorners_ok : ∀ (k : Nat) (bs : List Nat) (cap num : Nat) (h : Heap), HeapOk h → num < cap → (∀ a, bs.count a ≤ h.live.count a) →
    ∃ h' bs', growCorners k bs cap num h = some (h', bs') ∧ HeapOk h' ∧ ∀ a, h'.live.count a + bs.count a = bs'.count a + h.live.count a := by
  intro k
  induction k with
  | zero => intro bs cap num h H hn hb; exact ⟨h, bs, rfl, H, fun a => Nat.add_comm _ _⟩
  | succ k ih =>
    intro bs cap num h H hn hb
    have hm : ∀ b ∈ bs, b ∈ h.live := fun b hb' => by
      have h1 := hb b
      have h2 := List.count_pos_iff.mpr hb'
      exact List.count_pos_iff.mp (by omega)
    obtain ⟨h1, e1, H1, c1⟩ := step_ok h 3 (freshIds h.next 3) H (fun a => by omega)
    unfold growCorners
    rw [if_pos ⟨hn, hm⟩]
    simp only [e1, Option.bind_eq_bind, Option.bind_some]
    by_cases hc : num + 1 = cap
    · rw [if_pos hc]
      obtain ⟨h2, e2, H2, c2⟩ := step_ok h1 3 bs H1 (fun a => by have := c1 a; have := hb a; omega)
      obtain ⟨h', b', e, H', c'⟩ := ih (freshIds h1.next 3) (2 * cap) (num + 1) h2 H2 (by omega) (fun a => by
        have h3 := c1 a
        have h4 := c2 a
        have h5 := hb a
        omega)
      simp only [e2, Option.bind_some]
      refine ⟨h', b', e, H', fun a => ?_⟩
      have h3 := c1 a
      have h4 := c2 a
      have h5 := c' a
      omega
    · rw [if_neg hc]
      obtain ⟨h', b', e, H', c'⟩ := ih bs cap (num + 1) h1 H1 (by omega) (fun a => by have := c1 a; have := hb a; omega)
      refine ⟨h', b', e, H', fun a => ?_⟩
      have h3 := c1 a
      have h5 := c' a
      omega

theorem cellTry_ok (t : CellTry) (h : Heap) (H : HeapOk h) : ∃ h' ls bs, cellTry t h = some (h', ls, bs) ∧ HeapOk h' ∧ ∀ a, h'.live.count a = (ls ++ bs).count a + h.live.count a := by
  obtain ⟨h1, ns, e1, H1, c1, hz⟩ : ∃ h' l, foundArray t.neighbours h = some (h', l) ∧ HeapOk h' ∧ (∀ a, h'.live.count a = l.count a + h.live.count a) ∧ (t.neighbours = 0 → l = []) := by
    obtain ⟨h1, l, e, H1, c1⟩ := foundArray_ok t.neighbours h H
    refine ⟨h1, l, e, H1, c1, fun hz => ?_⟩
    rw [hz] at e
    unfold foundArray growFound at e
    simp only [if_true] at e
    split at e
    · exact absurd e (by simp)
    · cases e
      rfl
  unfold cellTry
  simp only [e1, Option.bind_eq_bind, Option.bind_some]
  by_cases hk : t.neighbours = 0
  · rw [if_pos hk]
    refine ⟨_, _, _, rfl, H1, fun a => ?_⟩
    rw [c1 a, hz hk]
    rfl
  · rw [if_neg hk]
    obtain ⟨h2, e2, H2, c2⟩ := step_alloc h1 4 H1
    have e4 : freshIds h1.next 4 = h1.next :: freshIds (h1.next + 1) 3 := rfl
    obtain ⟨h3, bs, e3, H3, c3⟩ := growCorners_ok t.corners (freshIds (h1.next + 1) 3) 100 8 h2 H2 (by omega) (fun a => by
      rw [c2 a, e4, List.count_cons]
      omega)
    simp only [e2, e3, Option.bind_some]
    refine ⟨_, _, _, rfl, H3, fun a => ?_⟩
    have h4 := c1 a
    have h5 := c2 a
    have h6 := c3 a
    rw [e4] at h5
    simp only [List.count_cons, List.count_append, List.cons_append] at h5 ⊢
    omega

theorem cellTries_ok : ∀ (ts : List CellTry) (h : Heap), HeapOk h → ∃ h', cellTries ts h = some h' ∧ HeapOk h' ∧ ∀ a, h'.live.count a = h.live.count a := by
  intro ts
  induction ts with
  | nil => intro h H; exact ⟨h, rfl, H, fun _ => rfl⟩
  | cons t ts ih =>
    intro h H
    obtain ⟨h1, ls, bs, e1, H1, c1⟩ := cellTry_ok t h H
    obtain ⟨h2, e2, H2, c2⟩ := step_free h1 (ls ++ bs) h.live H1 c1
    obtain ⟨h3, e3, H3, c3⟩ := ih h2 H2
    unfold cellTries
    simp only [e1, e2, Option.bind_eq_bind, Option.bind_some]
    exact ⟨h3, e3, H3, fun a => (c3 a).trans (c2 a)⟩

/-- The blocks of a cell. -/
def cellMemBlocks (c : CellMem) : List Nat := [c.corners, c.neighbours, c.seeds, c.indices]

theorem voronoiCellMem_ok (p : CellPlan) (h : Heap) (H : HeapOk h) : ∃ h' c, voronoiCellMem p h = some (h', c) ∧ HeapOk h' ∧ ∀ a, h'.live.count a = (cellMemBlocks c).count a + h.live.count a := by
  obtain ⟨h0, e0, H0, c0⟩ := step_alloc h 3 H
  obtain ⟨h1, e1, H1, c1⟩ := cellTries_ok p.small h0 H0
  obtain ⟨h2, ls, bs, e2, H2, c2⟩ := cellTry_ok p.last h1 H1
  have e5 : freshIds h2.next 5 = [h2.next, h2.next + 1, h2.next + 2, h2.next + 3, h2.next + 4] := rfl
  obtain ⟨h3, e3, H3, c3⟩ := step_ok h2 5 (bs ++ [h2.next]) H2 (fun a => by
    rw [c2 a, e5]
    simp only [List.count_cons, List.count_append, List.count_nil]
    omega)
  obtain ⟨h4, e4, H4, c4⟩ := step_free h3 ls ([h2.next + 1, h2.next + 2, h2.next + 3, h2.next + 4] ++ h1.live) H3 (fun a => by
    have h4 := c3 a
    rw [c2 a, e5] at h4
    simp only [List.count_cons, List.count_append, List.count_nil] at h4 ⊢
    omega)
  obtain ⟨h5, e6, H5, c5⟩ := step_free h4 (freshIds h.next 3) ([h2.next + 1, h2.next + 2, h2.next + 3, h2.next + 4] ++ h.live) H4 (fun a => by
    rw [c4 a, List.count_append, c1 a, c0 a, List.count_append]
    omega)
  unfold voronoiCellMem
  simp only [e0, e1, e2, e3, e4, e6, Option.bind_eq_bind, Option.bind_some]
  refine ⟨_, _, rfl, H5, fun a => ?_⟩
  rw [c5 a, List.count_append]
  rfl

/-- The four kinds of arrays of the cells, one kind after the other. -/
def cellsBlocks (cs : List (Option CellMem)) : List Nat := eachCell CellMem.corners cs ++ eachCell CellMem.neighbours cs ++ eachCell CellMem.seeds cs ++ eachCell CellMem.indices cs

theorem cellsMem_ok : ∀ (ps : List (Option CellPlan)) (h : Heap), HeapOk h → ∃ h' cs, cellsMem ps h = some (h', cs) ∧ HeapOk h' ∧ ∀ a, h'.live.count a = (cellsBlocks cs).count a + h.live.count a := by
  intro ps
  induction ps with
  | nil => intro h H; exact ⟨h, [], rfl, H, fun a => by simp [cellsBlocks, eachCell]⟩
  | cons p ps ih =>
    intro h H
    cases p with
    | none =>
      obtain ⟨h1, cs, e1, H1, c1⟩ := ih h H
      unfold cellsMem
      simp only [e1, Option.bind_eq_bind, Option.bind_some]
      exact ⟨_, _, rfl, H1, c1⟩
    | some p =>
      obtain ⟨h1, c, e1, H1, c1⟩ := voronoiCellMem_ok p h H
      obtain ⟨h2, cs, e2, H2, c2⟩ := ih h1 H1
      unfold cellsMem
      simp only [e1, e2, Option.bind_eq_bind, Option.bind_some]
      refine ⟨_, _, rfl, H2, fun a => ?_⟩
      rw [c2 a, c1 a]
      simp only [cellsBlocks, eachCell, cellMemBlocks, List.reduceOption_cons_of_some, List.map_cons, List.count_append, List.count_cons, List.count_nil, List.cons_append]
      omega

/-- The blocks of a mesh. -/
def meshMemBlocks (M : MeshMem) : List Nat := M.vertices :: M.faces :: M.rows

theorem voronoiMeshMem_ok (ps : List (Option CellPlan)) (nf : Nat) (h : Heap) (H : HeapOk h) :
    ∃ h' M, voronoiMeshMem ps nf h = some (h', M) ∧ HeapOk h' ∧ M.rows.length = nf ∧ ∀ a, h'.live.count a = (meshMemBlocks M).count a + h.live.count a := by
  obtain ⟨h0, e0, H0, c0⟩ := step_alloc h 6 H
  obtain ⟨h1, e1, H1, c1⟩ := step_alloc h0 5 H0
  obtain ⟨h2, cs, e2, H2, c2⟩ := cellsMem_ok ps h1 H1
  have e5 : freshIds h0.next 5 = [h0.next, h0.next + 1, h0.next + 2, h0.next + 3, h0.next + 4] := rfl
  obtain ⟨h3, e3, H3, c3⟩ := step_free h2 (freshIds h.next 6) (cellsBlocks cs ++ freshIds h0.next 5 ++ h.live) H2 (fun a => by
    rw [c2 a, c1 a, c0 a, List.count_append, List.count_append]
    omega)
  have e1' : freshIds h3.next 1 = [h3.next] := rfl
  obtain ⟨h4, e4, H4, c4⟩ := step_ok h3 1 (eachCell CellMem.corners cs ++ [h0.next + 1]) H3 (fun a => by
    rw [c3 a, e5]
    simp only [cellsBlocks, List.count_append, List.count_cons, List.count_nil]
    omega)
  obtain ⟨h5, e6, H5, c5⟩ := step_ok h4 (1 + nf) (eachCell CellMem.seeds cs ++ eachCell CellMem.neighbours cs ++ [h0.next, h0.next + 3, h0.next + 2]) H4 (fun a => by
    have h6 := c4 a
    rw [c3 a, e5, e1'] at h6
    simp only [cellsBlocks, List.count_append, List.count_cons, List.count_nil] at h6 ⊢
    omega)
  have e7 : freshIds h4.next (1 + nf) = [h4.next] ++ freshIds (h4.next + 1) nf := freshIds_add _ _ _
  obtain ⟨h6, e8, H6, c6⟩ := step_free h5 (eachCell CellMem.indices cs ++ [h0.next + 4]) (h3.next :: h4.next :: freshIds (h4.next + 1) nf ++ h.live) H5 (fun a => by
    have h6 := c4 a
    have h7 := c5 a
    rw [c3 a, e5, e1'] at h6
    rw [e7] at h7
    simp only [cellsBlocks, List.count_append, List.count_cons, List.count_nil, List.cons_append] at h6 h7 ⊢
    omega)
  unfold voronoiMeshMem
  simp only [e0, e1, e2, e3, e4, e6, e8, Option.bind_eq_bind, Option.bind_some]
  refine ⟨_, _, rfl, H6, by simp [freshIds], fun a => ?_⟩
  rw [c6 a, List.count_append]
  rfl

theorem explicitMeshMem_ok (seeds base : List Nat) (ps : List (Option CellPlan)) (nf : Nat) (meshed : List Bool) (vcg exodus : Bool) (h : Heap) (H : HeapOk h) (hb : ∀ a, h.live.count a = seeds.count a + base.count a) :
    ∃ (h' : Heap) (lost : List Nat), explicitMeshMem seeds ps nf meshed vcg exodus h = some h' ∧ HeapOk h' ∧ lost.length = (if exodus then 7 else 0) ∧ ∀ a, h'.live.count a = lost.count a + base.count a := by
  obtain ⟨h1, M, e1, H1, -, c1⟩ := voronoiMeshMem_ok ps nf h H
  have e1' : freshIds h1.next 1 = [h1.next] := rfl
  obtain ⟨h2, e2, H2, c2⟩ := step_ok h1 1 [h1.next] H1 (fun a => by rw [e1']; omega)
  obtain ⟨h3, e3, H3, c3⟩ := step_alloc h2 (2 + numMeshed meshed) H2
  obtain ⟨h4, e4, H4, c4⟩ : ∃ h4, vcgMem vcg h3 = some h4 ∧ HeapOk h4 ∧ ∀ a, h4.live.count a = h3.live.count a := by
    cases vcg with
    | false => exact ⟨h3, rfl, H3, fun _ => rfl⟩
    | true =>
      obtain ⟨h4, e, H4, c⟩ := step_ok h3 2 (freshIds h3.next 2) H3 (fun a => by omega)
      exact ⟨h4, e, H4, fun a => by have := c a; omega⟩
  obtain ⟨h9, lost, e9, H9, l9, c9⟩ : ∃ (h9 : Heap) (lost : List Nat), exodusMem exodus h4 = some h9 ∧ HeapOk h9 ∧ lost.length = (if exodus then 7 else 0) ∧ ∀ a, h9.live.count a = lost.count a + h4.live.count a := by
    cases exodus with
    | false => exact ⟨h4, [], rfl, H4, rfl, fun _ => by rw [List.count_nil]; omega⟩
    | true =>
      obtain ⟨h9, e, H9, c⟩ := step_alloc h4 7 H4
      exact ⟨h9, _, e, H9, rfl, c⟩
  have e5 : freshIds h2.next (2 + numMeshed meshed) = [h2.next, h2.next + 1] ++ freshIds (h2.next + 2) (numMeshed meshed) := freshIds_add _ _ _
  obtain ⟨h5, e6, H5, c5⟩ := step_free h9 (M.rows ++ [M.faces, M.vertices, h2.next]) (freshIds (h2.next + 2) (numMeshed meshed) ++ [h2.next + 1] ++ (lost ++ h.live)) H9 (fun a => by
    have h6 := c2 a
    rw [e1', c1 a] at h6
    rw [c9 a, c4 a, c3 a, e5]
    simp only [meshMemBlocks, List.count_append, List.count_cons, List.count_nil] at h6 ⊢
    omega)
  obtain ⟨h6, e7, H6, c6⟩ := step_free h5 (freshIds (h2.next + 2) (numMeshed meshed) ++ [h2.next + 1]) (lost ++ h.live) H5 (fun a => by rw [c5 a, List.count_append])
  obtain ⟨h7, e8, H7, c7⟩ := step_free h6 seeds (lost ++ base) H6 (fun a => by
    rw [c6 a, List.count_append, List.count_append, hb a]
    omega)
  unfold explicitMeshMem
  simp only [e1, e2, e3, e4, e9, e6, e7, e8, Option.bind_eq_bind, Option.bind_some]
  exact ⟨h7, lost, rfl, H7, l9, fun a => by rw [c7 a, List.count_append]⟩

/-- C136 for one cell: however often the radius is doubled, however many neighbours are found and corners are made, no array is written behind its end and none is freed twice, and of all arrays the four of the cell stay. -/
theorem C136_cell (p : CellPlan) (h : Heap) (H : h.live.Nodup ∧ ∀ b ∈ h.live, b < h.next) :
    ∃ h' c, voronoiCellMem p h = some (h', c) ∧ h'.live.Perm ([c.corners, c.neighbours, c.seeds, c.indices] ++ h.live) ∧ h'.live.Nodup := by
  obtain ⟨h', c, e, H', c'⟩ := voronoiCellMem_ok p h ⟨H.1, H.2⟩
  exact ⟨h', c, e, List.perm_iff_count.mpr (fun a => by rw [c' a, List.count_append]; rfl), H'.nodup⟩

/-- C136 for the mesh: what stays are the vertices, the array of the faces, and one array for every face. -/
theorem C136_mesh (ps : List (Option CellPlan)) (nf : Nat) (h : Heap) (H : h.live.Nodup ∧ ∀ b ∈ h.live, b < h.next) :
    ∃ h' M, voronoiMeshMem ps nf h = some (h', M) ∧ M.rows.length = nf ∧ h'.live.Perm (M.vertices :: M.faces :: M.rows ++ h.live) ∧ h'.live.Nodup := by
  obtain ⟨h', M, e, H', l, c'⟩ := voronoiMeshMem_ok ps nf h ⟨H.1, H.2⟩
  exact ⟨h', M, e, l, List.perm_iff_count.mpr (fun a => by rw [c' a, List.count_append]; rfl), H'.nodup⟩

/-- C136, what is proven of it: the step that makes the mesh frees the arrays of the seeds and whatever it allocates, each once - but for seven blocks if an Exodus file is written.  Missing is that these are freed, see
`C136_exodus_lost`. -/
theorem C136_explicit_partial (seeds base : List Nat) (ps : List (Option CellPlan)) (nf : Nat) (meshed : List Bool) (vcg exodus : Bool) (h : Heap) (H : h.live.Nodup ∧ ∀ b ∈ h.live, b < h.next) (hb : h.live.Perm (seeds ++ base)) :
    ∃ (h' : Heap) (lost : List Nat), explicitMeshMem seeds ps nf meshed vcg exodus h = some h' ∧ h'.live.Perm (lost ++ base) ∧ h'.live.Nodup ∧ lost.length = if exodus then 7 else 0 := by
  obtain ⟨h', lost, e, H', l, c⟩ := explicitMeshMem_ok seeds base ps nf meshed vcg exodus h ⟨H.1, H.2⟩ (fun a => by rw [List.perm_iff_count.mp hb a, List.count_append])
  exact ⟨h', lost, e, List.perm_iff_count.mpr (fun a => by rw [c a, List.count_append]), H'.nodup, l⟩

/-- C136 for a mesh from a file of seeds that is not written as an Exodus file: all memory is as before. -/
theorem C136_file_partial (ps : List (Option CellPlan)) (nf : Nat) (meshed : List Bool) (vcg : Bool) (h : Heap) (H : h.live.Nodup ∧ ∀ b ∈ h.live, b < h.next) :
    ∃ h', meshFromSeedsMem ps nf meshed vcg false h = some h' ∧ h'.live.Perm h.live := by
  obtain ⟨h1, e1, H1, c1⟩ := step_alloc h 3 ⟨H.1, H.2⟩
  obtain ⟨h', lost, e, -, l, c⟩ := explicitMeshMem_ok (freshIds h.next 3) h.live ps nf meshed vcg false h1 H1 c1
  have hl : lost = [] := List.length_eq_zero_iff.mp l
  subst hl
  refine ⟨h', ?_, List.perm_iff_count.mpr (fun a => by rw [c a, List.count_nil, Nat.zero_add])⟩
  unfold meshFromSeedsMem
  simp only [e1, Option.bind_eq_bind, Option.bind_some]
  exact e

/-- C136 is false of the code: every mesh from a file of seeds that is written as an Exodus file loses exactly seven blocks. -/
theorem C136_exodus_lost (ps : List (Option CellPlan)) (nf : Nat) (meshed : List Bool) (vcg : Bool) (h : Heap) (H : h.live.Nodup ∧ ∀ b ∈ h.live, b < h.next) :
    ∃ (h' : Heap) (lost : List Nat), meshFromSeedsMem ps nf meshed vcg true h = some h' ∧ h'.live.Perm (lost ++ h.live) ∧ lost.length = 7 := by
  obtain ⟨h1, e1, H1, c1⟩ := step_alloc h 3 ⟨H.1, H.2⟩
  obtain ⟨h', lost, e, -, l, c⟩ := explicitMeshMem_ok (freshIds h.next 3) h.live ps nf meshed vcg true h1 H1 c1
  refine ⟨h', lost, ?_, List.perm_iff_count.mpr (fun a => by rw [c a, List.count_append]), l⟩
  unfold meshFromSeedsMem
  simp only [e1, Option.bind_eq_bind, Option.bind_some]
  exact e

/-- A ghost, a cell that is found at once, and one for which the radius is doubled three times and the arrays of the corners grow. -/
example : ∃ (h' : Heap) (lost : List Nat), explicitMeshMem [0, 1, 2] [none, some ⟨[], ⟨5, 12⟩⟩, some ⟨[⟨0, 0⟩, ⟨1, 8⟩, ⟨9, 200⟩], ⟨40, 100⟩⟩] 7 [false, true, true] true false ⟨4, [3, 2, 1, 0]⟩ = some h' ∧ h'.live.Perm (lost ++ [3]) ∧ h'.live.Nodup ∧
    lost.length = if false then 7 else 0 :=
  C136_explicit_partial _ _ _ _ _ _ _ _ ⟨by decide, by decide⟩ (by decide)

/-- A small mesh, run: block 3 stays. -/
example : (explicitMeshMem [0, 1, 2] [none, some ⟨[⟨0, 0⟩], ⟨2, 1⟩⟩] 1 [false, true] true false ⟨4, [3, 2, 1, 0]⟩).map Heap.live = some [3] := by decide

/-- The same with the Exodus file: eight blocks. -/
example : (explicitMeshMem [0, 1, 2] [none, some ⟨[⟨0, 0⟩], ⟨2, 1⟩⟩] 1 [false, true] true true ⟨4, [3, 2, 1, 0]⟩).map (fun h => h.live.length) = some 8 := by decide

end VoroCrust
