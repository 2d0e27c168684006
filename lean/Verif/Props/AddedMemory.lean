import Verif.Model.AddedMemory
import Verif.Props.MeshMemory

/-!
# Properties of the memory of the added seeds (C137)
-/

namespace VoroCrust

/-- A step that frees the blocks it allocates. -/
theorem step_own (h : Heap) (k : Nat) (H : HeapOk h) : ∃ h', h.step k (freshIds h.next k) = some h' ∧ HeapOk h' ∧ ∀ a, h'.live.count a = h.live.count a := by
  obtain ⟨h', e, H', c'⟩ := step_ok h k (freshIds h.next k) H (fun a => by omega)
  exact ⟨h', e, H', fun a => by have := c' a; omega⟩

/-- A new block is not one of those in use. -/
theorem freshIds_not_live (h : Heap) (k : Nat) (H : HeapOk h) : ∀ x ∈ freshIds h.next k, x ∉ h.live := fun x hx hl =>
  (List.nodup_append.mp (heapOk_alloc h k H).nodup).2.2 x hx x hl rfl

theorem pointTree_ok (t : Bool) (h : Heap) (H : HeapOk h) : ∃ h' l, pointTree t h = some (h', l) ∧ HeapOk h' ∧ (∀ a, h'.live.count a = l.count a + h.live.count a) ∧ (t = false → l = []) := by
  unfold pointTree
  cases t with
  | false => exact ⟨h, [], rfl, H, fun a => by rw [List.count_nil]; omega, fun _ => rfl⟩
  | true =>
    obtain ⟨h1, e1, H1, c1⟩ := step_alloc h 2 H
    obtain ⟨h2, e2, H2, c2⟩ := step_own h1 1 H1
    obtain ⟨h3, e3, H3, c3⟩ := step_alloc h2 3 H2
    obtain ⟨h4, e4, H4, c4⟩ := step_own h3 2 H3
    rw [if_pos rfl]
    simp only [e1, e2, e3, e4, Option.bind_eq_bind, Option.bind_some]
    refine ⟨_, _, rfl, H4, fun a => ?_, fun h => by cases h⟩
    rw [List.count_append]
    have := c1 a
    have := c2 a
    have := c3 a
    have := c4 a
    omega

theorem pointTrees_ok : ∀ (ts : List Bool) (h : Heap), HeapOk h → ∃ h' ls, pointTrees ts h = some (h', ls) ∧ HeapOk h' ∧ ∀ a, h'.live.count a = (treesFreed ts ls).count a + h.live.count a := by
  intro ts
  induction ts with
  | nil => intro h H; exact ⟨h, [], rfl, H, fun a => by unfold treesFreed; rw [List.count_nil]; omega⟩
  | cons t ts ih =>
    intro h H
    obtain ⟨h1, l, e1, H1, c1, hz⟩ := pointTree_ok t h H
    obtain ⟨h2, ls, e2, H2, c2⟩ := ih h1 H1
    unfold pointTrees
    simp only [e1, e2, Option.bind_eq_bind, Option.bind_some]
    refine ⟨_, _, rfl, H2, fun a => ?_⟩
    have h3 := c1 a
    have h4 := c2 a
    have h5 : (if t = true then l else []) = l := by
      cases t with
      | true => rfl
      | false => exact (hz rfl).symm
    unfold treesFreed
    rw [h5, List.count_append]
    omega

theorem nearTries_ok : ∀ (ks : List Nat) (h : Heap), HeapOk h → ∃ h', nearTries ks h = some h' ∧ HeapOk h' ∧ ∀ a, h'.live.count a = h.live.count a := by
  intro ks
  induction ks with
  | nil => intro h H; exact ⟨h, rfl, H, fun a => rfl⟩
  | cons k ks ih =>
    intro h H
    obtain ⟨h1, ns, e1, H1, c1⟩ := foundArray_ok k h H
    obtain ⟨h2, e2, H2, c2⟩ := step_free h1 ns h.live H1 c1
    obtain ⟨h', e, H', c'⟩ := ih h2 H2
    unfold nearTries
    simp only [e1, e2, Option.bind_eq_bind, Option.bind_some]
    exact ⟨h', e, H', fun a => (c' a).trans (c2 a)⟩

theorem edgeDarts_ok (t : EdgeTry) (h : Heap) (H : HeapOk h) : ∃ h', edgeDarts t h = some h' ∧ HeapOk h' ∧ ∀ a, h'.live.count a = h.live.count a := by
  unfold edgeDarts
  by_cases hs : 2 < t.seeds
  · rw [if_pos hs]
    exact ⟨h, rfl, H, fun a => rfl⟩
  · rw [if_neg hs]
    exact nearTries_ok t.darts h H

theorem pushAdded_ok (add : Bool) (A : AddedMem) (h : Heap) (H : HeapOk h) (hn : A.num < A.cap) (hb : ∀ a, A.blocks.count a ≤ h.live.count a) :
    ∃ h' A', pushAdded add A h = some (h', A') ∧ HeapOk h' ∧ A'.num < A'.cap ∧ A'.num = A.num + (if add then 1 else 0) ∧ ∀ a, h'.live.count a + A.blocks.count a = A'.blocks.count a + h.live.count a := by
  unfold pushAdded
  cases add with
  | false => exact ⟨h, A, rfl, H, hn, rfl, fun a => Nat.add_comm _ _⟩
  | true =>
    have hm : ∀ b ∈ A.blocks, b ∈ h.live := fun b hb' => by
      have h1 := hb b
      have h2 := List.count_pos_iff.mpr hb'
      exact List.count_pos_iff.mp (by omega)
    rw [if_pos rfl, if_pos ⟨hn, hm⟩]
    by_cases hc : A.num + 1 = A.cap
    · rw [if_pos hc]
      obtain ⟨h1, e1, H1, c1⟩ := step_ok h 3 A.blocks H (fun a => by have := hb a; omega)
      simp only [e1, Option.bind_eq_bind, Option.bind_some]
      exact ⟨_, _, rfl, H1, by show A.num + 1 < 2 * A.cap; omega, rfl, c1⟩
    · rw [if_neg hc]
      exact ⟨_, _, rfl, H, by show A.num + 1 < A.cap; omega, rfl, fun a => Nat.add_comm _ _⟩

theorem edgeTries_ok : ∀ (ts : List EdgeTry) (A : AddedMem) (h : Heap), HeapOk h → A.num < A.cap → (∀ a, A.blocks.count a ≤ h.live.count a) →
    ∃ h' A', edgeTries ts A h = some (h', A') ∧ HeapOk h' ∧ A'.num = A.num + ts.countP EdgeTry.adds ∧ ∀ a, h'.live.count a + A.blocks.count a = A'.blocks.count a + h.live.count a := by
  intro ts
  induction ts with
  | nil => intro A h H hn hb; exact ⟨h, A, rfl, H, rfl, fun a => Nat.add_comm _ _⟩
  | cons t ts ih =>
    intro A h H hn hb
    obtain ⟨h1, ns, e1, H1, c1⟩ := foundArray_ok t.seeds h H
    obtain ⟨h2, e2, H2, c2⟩ := step_free h1 ns h.live H1 c1
    obtain ⟨h3, e3, H3, c3⟩ := edgeDarts_ok t h2 H2
    have hc : ∀ a, h3.live.count a = h.live.count a := fun a => (c3 a).trans (c2 a)
    obtain ⟨h4, A1, e4, H4, n4, m4, c4⟩ := pushAdded_ok t.adds A h3 H3 hn (fun a => by rw [hc a]; exact hb a)
    obtain ⟨h', A', e, H', m', c'⟩ := ih A1 h4 H4 n4 (fun a => by
      have := c4 a
      have := hc a
      have := hb a
      omega)
    unfold edgeTries
    simp only [e1, e2, e3, e4, Option.bind_eq_bind, Option.bind_some]
    refine ⟨h', A', e, H', ?_, fun a => ?_⟩
    · rw [m', m4, List.countP_cons]
      omega
    · have := c4 a
      have := hc a
      have := c' a
      omega

theorem moreSeeds_ok (num : Nat) (seeds : List Nat) (h : Heap) (H : HeapOk h) (h3 : seeds.length = 3) (hb : ∀ a, seeds.count a ≤ h.live.count a) :
    ∃ h' s, moreSeeds num seeds h = some (h', s) ∧ HeapOk h' ∧ s.length = 3 ∧ (0 < num → ∀ x ∈ s, x ∉ h.live) ∧ (num = 0 → s = seeds) ∧ ∀ a, h'.live.count a + seeds.count a = s.count a + h.live.count a := by
  unfold moreSeeds
  by_cases hn : 0 < num
  · rw [if_pos hn]
    obtain ⟨h1, e1, H1, c1⟩ := step_ok h 3 seeds H (fun a => by have := hb a; omega)
    simp only [e1, Option.bind_eq_bind, Option.bind_some]
    exact ⟨_, _, rfl, H1, rfl, fun _ => freshIds_not_live h 3 H, fun h0 => by omega, c1⟩
  · rw [if_neg hn]
    exact ⟨_, _, rfl, H, h3, fun h0 => absurd h0 hn, fun _ => rfl, fun a => Nat.add_comm _ _⟩

theorem edgeSeedsMem_ok (seeds base : List Nat) (ts : List Bool) (sides : List EdgeTry) (h : Heap) (H : HeapOk h) (h3 : seeds.length = 3) (hb : ∀ a, h.live.count a = seeds.count a + base.count a) :
    ∃ h' s, edgeSeedsMem seeds ts sides h = some (h', s) ∧ HeapOk h' ∧ s.length = 3 ∧ ((∃ t ∈ sides, t.adds) → ∀ x ∈ s, x ∉ seeds) ∧ ((∀ t ∈ sides, t.adds = false) → s = seeds) ∧
      ∀ a, h'.live.count a = s.count a + base.count a := by
  obtain ⟨h1, tree, e1, H1, c1, -⟩ := pointTree_ok true h H
  obtain ⟨h2, e2, H2, c2, -⟩ := sortedSizesMem_ok h1 H1
  obtain ⟨k3, ls, e3, H3, c3⟩ := pointTrees_ok ts h2 H2
  obtain ⟨h4, e4, H4, c4⟩ := step_alloc k3 9 H3
  obtain ⟨h5, e5, H5, c5⟩ := step_alloc h4 3 H4
  obtain ⟨h6, A, e6, H6, m6, c6⟩ := edgeTries_ok sides ⟨freshIds h4.next 3, 100, 0⟩ h5 H5 (by show 0 < 100; omega) (fun a => by
    show (freshIds h4.next 3).count a ≤ _
    have := c5 a
    omega)
  have c6' : ∀ a, h6.live.count a + (freshIds h4.next 3).count a = A.blocks.count a + h5.live.count a := c6
  have hall : ∀ a, h6.live.count a = A.blocks.count a + (freshIds k3.next 9).count a + (treesFreed ts ls).count a + tree.count a + seeds.count a + base.count a := fun a => by
    have := c1 a
    have := c2 a
    have := c3 a
    have := c4 a
    have := c5 a
    have := c6' a
    have := hb a
    omega
  obtain ⟨h7, s, e7, H7, l7, f7, z7, c7⟩ := moreSeeds_ok A.num seeds h6 H6 h3 (fun a => by have := hall a; omega)
  obtain ⟨h8, e8, H8, c8⟩ := step_free h7 (freshIds k3.next 9) (A.blocks ++ (tree ++ (treesFreed ts ls ++ (s ++ base)))) H7 (fun a => by
    have := hall a
    have := c7 a
    simp only [List.count_append]
    omega)
  obtain ⟨h9, e9, H9, c9⟩ := step_free h8 A.blocks (tree ++ (treesFreed ts ls ++ (s ++ base))) H8 (fun a => by rw [c8 a, List.count_append])
  obtain ⟨h10, e10, H10, c10⟩ := step_free h9 tree (treesFreed ts ls ++ (s ++ base)) H9 (fun a => by rw [c9 a, List.count_append])
  obtain ⟨h11, e11, H11, c11⟩ := step_free h10 (treesFreed ts ls) (s ++ base) H10 (fun a => by rw [c10 a, List.count_append])
  unfold edgeSeedsMem
  simp only [e1, e2, e3, e4, e5, e6, e7, e8, e9, e10, e11, Option.bind_eq_bind, Option.bind_some]
  have m6' : A.num = sides.countP EdgeTry.adds := by rw [m6]; exact Nat.zero_add _
  refine ⟨_, _, rfl, H11, l7, ?_, ?_, fun a => by rw [c11 a, List.count_append]⟩
  · rintro ⟨t, ht, hd⟩ x hx hs
    have h0 : 0 < A.num := by rw [m6']; exact List.countP_pos_iff.mpr ⟨t, ht, hd⟩
    refine f7 h0 x hx (List.count_pos_iff.mp ?_)
    have := hall x
    have := List.count_pos_iff.mpr hs
    omega
  · intro hz
    refine z7 ?_
    rw [m6']
    exact List.countP_eq_zero.mpr (fun t ht => by rw [hz t ht]; simp)

theorem testPoints_ok : ∀ (ps : List ImposedPoint) (h : Heap), HeapOk h → ∃ h', testPoints ps h = some h' ∧ HeapOk h' ∧ ∀ a, h'.live.count a = h.live.count a := by
  intro ps
  induction ps with
  | nil => intro h H; exact ⟨h, rfl, H, fun a => rfl⟩
  | cons p ps ih =>
    intro h H
    obtain ⟨h1, e1, H1, c1⟩ := step_alloc h 1 H
    obtain ⟨h2, e2, H2, c2⟩ := nearTries_ok p.searches h1 H1
    obtain ⟨h3, e3, H3, c3⟩ := step_free h2 (freshIds h.next 1) h.live H2 (fun a => (c2 a).trans (c1 a))
    obtain ⟨h', e, H', c'⟩ := ih h3 H3
    unfold testPoints
    simp only [e1, e2, e3, Option.bind_eq_bind, Option.bind_some]
    exact ⟨h', e, H', fun a => (c' a).trans (c3 a)⟩

theorem copyPoints_ok : ∀ (ps : List ImposedPoint) (h : Heap), HeapOk h → ∃ h', copyPoints ps h = some h' ∧ HeapOk h' ∧ ∀ a, h'.live.count a = h.live.count a := by
  intro ps
  induction ps with
  | nil => intro h H; exact ⟨h, rfl, H, fun a => rfl⟩
  | cons p ps ih =>
    intro h H
    obtain ⟨h1, e1, H1, c1⟩ : ∃ h', copyPoint p.valid h = some h' ∧ HeapOk h' ∧ ∀ a, h'.live.count a = h.live.count a := by
      unfold copyPoint
      cases p.valid with
      | false => exact ⟨h, rfl, H, fun a => rfl⟩
      | true => exact step_own h 1 H
    obtain ⟨h', e, H', c'⟩ := ih h1 H1
    unfold copyPoints
    simp only [e1, Option.bind_eq_bind, Option.bind_some]
    exact ⟨h', e, H', fun a => (c' a).trans (c1 a)⟩

theorem withPoints_ok (ps : List ImposedPoint) (seeds : List Nat) (h : Heap) (H : HeapOk h) (h3 : seeds.length = 3) (hb : ∀ a, seeds.count a ≤ h.live.count a) :
    ∃ h' s, withPoints ps seeds h = some (h', s) ∧ HeapOk h' ∧ s.length = 3 ∧ ((∃ p ∈ ps, p.valid) → ∀ x ∈ s, x ∉ h.live) ∧ ((∀ p ∈ ps, p.valid = false) → s = seeds) ∧
      ∀ a, h'.live.count a + seeds.count a = s.count a + h.live.count a := by
  unfold withPoints
  by_cases hn : 0 < ps.countP (fun p => p.valid)
  · rw [if_pos hn]
    obtain ⟨h1, e1, H1, c1⟩ := step_alloc h 3 H
    obtain ⟨h2, e2, H2, c2⟩ := copyPoints_ok ps h1 H1
    obtain ⟨k3, e3, H3, c3⟩ := step_ok h2 0 seeds H2 (fun a => by
      have := c1 a
      have := c2 a
      have := hb a
      omega)
    simp only [e1, e2, e3, Option.bind_eq_bind, Option.bind_some]
    refine ⟨_, _, rfl, H3, rfl, fun _ => freshIds_not_live h 3 H, fun hz => ?_, fun a => ?_⟩
    · obtain ⟨p, hp, hv⟩ := List.countP_pos_iff.mp hn
      rw [hz p hp] at hv
      cases hv
    · have h4 := c1 a
      have h5 := c2 a
      have h6 := c3 a
      have h7 : (freshIds h2.next 0).count a = 0 := rfl
      omega
  · rw [if_neg hn]
    exact ⟨_, _, rfl, H, h3, fun ⟨p, hp, hv⟩ => absurd (List.countP_pos_iff.mpr ⟨p, hp, hv⟩) hn, fun _ => rfl, fun a => Nat.add_comm _ _⟩

theorem imposeMem_ok (seeds base : List Nat) (ts : List Bool) (ps : List ImposedPoint) (h : Heap) (H : HeapOk h) (h3 : seeds.length = 3) (hb : ∀ a, h.live.count a = seeds.count a + base.count a) :
    ∃ h' s, imposeMem seeds ts ps h = some (h', s) ∧ HeapOk h' ∧ s.length = 3 ∧ ((∃ p ∈ ps, p.valid) → ∀ x ∈ s, x ∉ seeds) ∧ ((∀ p ∈ ps, p.valid = false) → s = seeds) ∧
      ∀ a, h'.live.count a = s.count a + base.count a := by
  obtain ⟨h1, tree, e1, H1, c1, -⟩ := pointTree_ok true h H
  obtain ⟨h2, e2, H2, c2, -⟩ := sortedSizesMem_ok h1 H1
  obtain ⟨k3, ls, e3, H3, c3⟩ := pointTrees_ok ts h2 H2
  obtain ⟨h4, e4, H4, c4⟩ := step_alloc k3 2 H3
  obtain ⟨h5, e5, H5, c5⟩ := testPoints_ok ps h4 H4
  have hall : ∀ a, h5.live.count a = (freshIds k3.next 2).count a + (treesFreed ts ls).count a + tree.count a + seeds.count a + base.count a := fun a => by
    have := c1 a
    have := c2 a
    have := c3 a
    have := c4 a
    have := c5 a
    have := hb a
    omega
  obtain ⟨h6, s, e6, H6, l6, f6, z6, c6⟩ := withPoints_ok ps seeds h5 H5 h3 (fun a => by have := hall a; omega)
  obtain ⟨h7, e7, H7, c7⟩ := step_free h6 (freshIds k3.next 2) (tree ++ (treesFreed ts ls ++ (s ++ base))) H6 (fun a => by
    have := hall a
    have := c6 a
    simp only [List.count_append]
    omega)
  obtain ⟨h8, e8, H8, c8⟩ := step_free h7 tree (treesFreed ts ls ++ (s ++ base)) H7 (fun a => by rw [c7 a, List.count_append])
  obtain ⟨h9, e9, H9, c9⟩ := step_free h8 (treesFreed ts ls) (s ++ base) H8 (fun a => by rw [c8 a, List.count_append])
  unfold imposeMem
  simp only [e1, e2, e3, e4, e5, e6, e7, e8, e9, Option.bind_eq_bind, Option.bind_some]
  refine ⟨_, _, rfl, H9, l6, fun hv x hx hs => f6 hv x hx (List.count_pos_iff.mp ?_), z6, fun a => by rw [c9 a, List.count_append]⟩
  have := hall x
  have := List.count_pos_iff.mpr hs
  omega

theorem loadSpheresMem_ok (k : Nat) (h : Heap) (H : HeapOk h) : ∃ h' b, loadSpheresMem k h = some (h', b) ∧ HeapOk h' ∧ ∀ a, h'.live.count a = [b].count a + h.live.count a := by
  obtain ⟨h1, e1, H1, c1⟩ := step_alloc h 1 H
  have ef : freshIds h.next 1 = [h.next] := rfl
  obtain ⟨h', b, e, H', c'⟩ := growFound_ok k h.next 100 0 h1 H1 (by omega) (fun a => by have := c1 a; rw [ef] at this; omega)
  unfold loadSpheresMem
  simp only [e1, Option.bind_eq_bind, Option.bind_some]
  refine ⟨h', b, e, H', fun a => ?_⟩
  have h2 := c1 a
  have h3 := c' a
  rw [ef] at h2
  omega

theorem addedSeedsMem_ok (seeds base : List Nat) (ts : List Bool) (sides : List EdgeTry) (points : Option (List ImposedPoint)) (h : Heap) (H : HeapOk h) (h3 : seeds.length = 3) (hb : ∀ a, h.live.count a = seeds.count a + base.count a) :
    ∃ h' s b, addedSeedsMem seeds ts sides points h = some (h', s, b) ∧ HeapOk h' ∧ s.length = 3 ∧ b.isSome = points.isSome ∧ ∀ a, h'.live.count a = s.count a + b.toList.count a + base.count a := by
  obtain ⟨h1, s1, e1, H1, l1, -, -, c1⟩ := edgeSeedsMem_ok seeds base ts sides h H h3 hb
  unfold addedSeedsMem
  cases points with
  | none =>
    simp only [e1, Option.bind_eq_bind, Option.bind_some]
    refine ⟨_, _, _, rfl, H1, l1, rfl, fun a => ?_⟩
    rw [c1 a]
    simp only [Option.toList, List.count_nil]
    omega
  | some ps =>
    obtain ⟨h2, b, e2, H2, c2⟩ := loadSpheresMem_ok ps.length h1 H1
    obtain ⟨k3, s2, e3, H3, l3, -, -, c3⟩ := imposeMem_ok s1 (b :: base) ts ps h2 H2 l1 (fun a => by
      rw [c2 a, c1 a, show b :: base = [b] ++ base from rfl, List.count_append]
      omega)
    simp only [e1, e2, e3, Option.bind_eq_bind, Option.bind_some]
    refine ⟨_, _, _, rfl, H3, l3, rfl, fun a => ?_⟩
    rw [c3 a, show b :: base = [b] ++ base from rfl]
    simp only [Option.toList, List.count_append]
    omega

/-- C137 for the sharp edges: for all seeds and spheres no block is freed twice, no array of added seeds is written behind its end, and in the end there are the three arrays of the seeds and what was there before.  They are new arrays if for
one side, whose circle has at most two seeds, a place is found, and the old ones if there is no such side. -/
theorem C137_edges (seeds base : List Nat) (ts : List Bool) (sides : List EdgeTry) (h : Heap) (H : h.live.Nodup ∧ ∀ b ∈ h.live, b < h.next) (h3 : seeds.length = 3) (hb : h.live.Perm (seeds ++ base)) :
    ∃ h' s, edgeSeedsMem seeds ts sides h = some (h', s) ∧ s.length = 3 ∧ h'.live.Perm (s ++ base) ∧ h'.live.Nodup ∧ ((∃ t ∈ sides, t.seeds ≤ 2 ∧ t.found = true) → ∀ x ∈ s, x ∉ seeds) ∧
      ((∀ t ∈ sides, 2 < t.seeds ∨ t.found = false) → s = seeds) := by
  obtain ⟨h', s, e, H', l, f, z, c⟩ := edgeSeedsMem_ok seeds base ts sides h ⟨H.1, H.2⟩ h3 (fun a => by rw [List.perm_iff_count.mp hb a, List.count_append])
  refine ⟨h', s, e, l, List.perm_iff_count.mpr (fun a => by rw [c a, List.count_append]), H'.nodup, ?_, ?_⟩
  · rintro ⟨t, ht, hs, hf⟩
    exact f ⟨t, ht, by unfold EdgeTry.adds; rw [hf, decide_eq_true hs]; rfl⟩
  · intro hz
    refine z (fun t ht => ?_)
    unfold EdgeTry.adds
    rcases hz t ht with hs | hf
    · rw [decide_eq_false (by omega)]
      rfl
    · rw [hf, Bool.and_false]

/-- C137 for the imposed points. -/
theorem C137_impose (seeds base : List Nat) (ts : List Bool) (ps : List ImposedPoint) (h : Heap) (H : h.live.Nodup ∧ ∀ b ∈ h.live, b < h.next) (h3 : seeds.length = 3) (hb : h.live.Perm (seeds ++ base)) :
    ∃ h' s, imposeMem seeds ts ps h = some (h', s) ∧ s.length = 3 ∧ h'.live.Perm (s ++ base) ∧ h'.live.Nodup ∧ ((∃ p ∈ ps, p.valid) → ∀ x ∈ s, x ∉ seeds) ∧ ((∀ p ∈ ps, p.valid = false) → s = seeds) := by
  obtain ⟨h', s, e, H', l, f, z, c⟩ := imposeMem_ok seeds base ts ps h ⟨H.1, H.2⟩ h3 (fun a => by rw [List.perm_iff_count.mp hb a, List.count_append])
  exact ⟨h', s, e, l, List.perm_iff_count.mpr (fun a => by rw [c a, List.count_append]), H'.nodup, f, z⟩

/-- C137 for both steps: in the end there are three arrays of seeds, the array of the points if they were asked for, and what was there before. -/
theorem C137_added (seeds base : List Nat) (ts : List Bool) (sides : List EdgeTry) (points : Option (List ImposedPoint)) (h : Heap) (H : h.live.Nodup ∧ ∀ b ∈ h.live, b < h.next) (h3 : seeds.length = 3) (hb : h.live.Perm (seeds ++ base)) :
    ∃ h' s b, addedSeedsMem seeds ts sides points h = some (h', s, b) ∧ s.length = 3 ∧ b.isSome = points.isSome ∧ h'.live.Perm (s ++ b.toList ++ base) ∧ h'.live.Nodup := by
  obtain ⟨h', s, b, e, H', l, i, c⟩ := addedSeedsMem_ok seeds base ts sides points h ⟨H.1, H.2⟩ h3 (fun a => by rw [List.perm_iff_count.mp hb a, List.count_append])
  exact ⟨h', s, b, e, l, i, List.perm_iff_count.mpr (fun a => by rw [c a, List.count_append, List.count_append]), H'.nodup⟩

/-- Surface and edge spheres, two sides of edge spheres of which one gets a seed, three points of which one is valid. -/
example : ∃ h' s b, addedSeedsMem [0, 1, 2] [true, true, false, false] [⟨2, [0, 12], true⟩, ⟨3, [], false⟩] (some [⟨[], false⟩, ⟨[4], false⟩, ⟨[0, 20], true⟩]) ⟨4, [3, 2, 1, 0]⟩ = some (h', s, b) ∧ s.length = 3 ∧
    b.isSome = (some [(⟨[], false⟩ : ImposedPoint), ⟨[4], false⟩, ⟨[0, 20], true⟩]).isSome ∧ h'.live.Perm (s ++ b.toList ++ [3]) ∧ h'.live.Nodup :=
  C137_added _ _ _ _ _ _ ⟨by decide, by decide⟩ rfl (by decide)

/-- The same, run: the three arrays of the seeds, the one of the points, and block 3. -/
example : (addedSeedsMem [0, 1, 2] [true, true, false, false] [⟨2, [0, 12], true⟩, ⟨3, [], false⟩] (some [⟨[], false⟩, ⟨[4], false⟩, ⟨[0, 20], true⟩]) ⟨4, [3, 2, 1, 0]⟩).map (fun r => r.1.live.length) = some 5 := by decide

/-- With 150 seeds added, which takes more than the first arrays hold. -/
example : ∃ h' s, edgeSeedsMem [0, 1, 2] [false, true, true, false] (List.replicate 150 ⟨1, [], true⟩) ⟨4, [3, 2, 1, 0]⟩ = some (h', s) ∧ ∀ x ∈ s, x ∉ [0, 1, 2] := by
  obtain ⟨h', s, e, -, -, -, f, -⟩ := C137_edges [0, 1, 2] [3] [false, true, true, false] (List.replicate 150 ⟨1, [], true⟩) ⟨4, [3, 2, 1, 0]⟩ ⟨by decide, by decide⟩ rfl (by decide)
  exact ⟨h', s, e, f ⟨⟨1, [], true⟩, by simp, by decide, rfl⟩⟩

end VoroCrust
