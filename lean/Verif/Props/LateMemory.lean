import Verif.Model.LateMemory
import Verif.Props.AddedMemory

/-!
# Properties of the memory of a run from the seeds to the mesh (C138)
-/

namespace VoroCrust

theorem sphereArrays_ok : ∀ (ts : List Bool) (h : Heap), HeapOk h → ∃ h' ls, sphereArrays ts h = some (h', ls) ∧ HeapOk h' ∧ ∀ a, h'.live.count a = (treesFreed ts ls).count a + h.live.count a := by
  intro ts
  induction ts with
  | nil => intro h H; exact ⟨h, [], rfl, H, fun a => by unfold treesFreed; rw [List.count_nil]; omega⟩
  | cons t ts ih =>
    intro h H
    obtain ⟨h1, e1, H1, c1⟩ := step_alloc h (if t then 2 else 0) H
    obtain ⟨h2, ls, e2, H2, c2⟩ := ih h1 H1
    unfold sphereArrays
    simp only [e1, e2, Option.bind_eq_bind, Option.bind_some]
    refine ⟨_, _, rfl, H2, fun a => ?_⟩
    have h3 := c1 a
    have h4 := c2 a
    unfold treesFreed
    rw [List.count_append]
    cases t with
    | true =>
      simp only [if_true] at h3 ⊢
      omega
    | false =>
      have h5 : (freshIds h.next 0).count a = 0 := rfl
      simp only [Bool.false_eq_true, if_false, List.count_nil] at h3 ⊢
      omega

theorem interiorSeedsMem_ok (p : LatePlan) (seeds base : List Nat) (h : Heap) (H : HeapOk h) (h3 : seeds.length = 3) (hb : h.live.Perm (seeds ++ base)) :
    ∃ h' s b, interiorSeedsMem p seeds h = some (h', s) ∧ HeapOk h' ∧ s.length = 3 ∧ ∀ a, h'.live.count a = (b :: s ++ base).count a := by
  obtain ⟨h1, ls, e1, H1, c1⟩ := pointTrees_ok p.trees h H
  obtain ⟨h2, e2, H2, c2⟩ := step_alloc h1 p.threads H1
  obtain ⟨k3, s, b, e3, H3, l3, c3⟩ := seedingLife_ok seeds (treesFreed p.trees ls ++ (freshIds h1.next p.threads ++ base)) p.rounds p.last p.waiting h2 H2 h3 (List.perm_iff_count.mpr (fun a => by
    have q1 := c1 a
    have q2 := c2 a
    have q3 := List.perm_iff_count.mp hb a
    simp only [List.count_append] at q3 ⊢
    omega))
  obtain ⟨h4, e4, H4, c4⟩ := step_free k3 (treesFreed p.trees ls) (freshIds h1.next p.threads ++ (b :: s ++ base)) H3 (fun a => by
    rw [c3 a]
    simp only [List.cons_append, List.count_append, List.count_cons]
    omega)
  obtain ⟨h5, e5, H5, c5⟩ := step_free h4 (freshIds h1.next p.threads) (b :: s ++ base) H4 (fun a => by rw [c4 a, List.count_append])
  unfold interiorSeedsMem
  simp only [e1, e2, e3, e4, e5, Option.bind_eq_bind, Option.bind_some]
  exact ⟨_, _, b, rfl, H5, l3, c5⟩

theorem removeSeeds_ok (removed : Bool) (seeds : List Nat) (h : Heap) (H : HeapOk h) (h3 : seeds.length = 3) (hb : ∀ a, seeds.count a ≤ h.live.count a) :
    ∃ h' s, removeSeeds removed seeds h = some (h', s) ∧ HeapOk h' ∧ s.length = 3 ∧ ∀ a, h'.live.count a + seeds.count a = s.count a + h.live.count a := by
  unfold removeSeeds
  cases removed with
  | false => exact ⟨_, _, rfl, H, h3, fun a => Nat.add_comm _ _⟩
  | true =>
    obtain ⟨h1, e1, H1, c1⟩ := step_ok h 3 seeds H (fun a => by have := hb a; omega)
    simp only [if_true, e1, Option.bind_eq_bind, Option.bind_some]
    exact ⟨_, _, rfl, H1, rfl, c1⟩

theorem freshIds_length (n k : Nat) : (freshIds n k).length = k := by
  unfold freshIds
  rw [List.length_map, List.length_range]

theorem retrieveMem_ok (hits : Nat) (removed : Bool) (b : Option Nat) (seeds base : List Nat) (h : Heap) (H : HeapOk h) (h3 : seeds.length = 3) (hb : ∀ a, h.live.count a = seeds.count a + b.toList.count a + base.count a) :
    ∃ (h' : Heap) (s lost : List Nat), retrieveMem hits removed b seeds h = some (h', s) ∧ HeapOk h' ∧ s.length = 3 ∧ lost.length = (if b.isSome then hits else 0) ∧ ∀ a, h'.live.count a = s.count a + lost.count a + base.count a := by
  unfold retrieveMem
  cases b with
  | none =>
    refine ⟨_, _, [], rfl, H, h3, rfl, fun a => ?_⟩
    have h4 := hb a
    simpa only [Option.toList, List.count_nil] using h4
  | some b =>
    obtain ⟨h1, e1, H1, c1⟩ := step_alloc h 3 H
    obtain ⟨h2, e2, H2, c2⟩ := step_alloc h1 hits H1
    obtain ⟨k3, s, e3, H3, l3, c3⟩ := removeSeeds_ok removed seeds h2 H2 h3 (fun a => by
      have := c1 a
      have := c2 a
      have := hb a
      omega)
    obtain ⟨h4, e4, H4, c4⟩ := step_free k3 (b :: freshIds h.next 3) (s ++ freshIds h1.next hits ++ base) H3 (fun a => by
      have q1 := c1 a
      have q2 := c2 a
      have q3 := c3 a
      have q4 := hb a
      have q5 : (b :: freshIds h.next 3).count a = [b].count a + (freshIds h.next 3).count a := by rw [show b :: freshIds h.next 3 = [b] ++ freshIds h.next 3 from rfl, List.count_append]
      simp only [Option.toList] at q4
      rw [q5, List.count_append, List.count_append]
      omega)
    simp only [e1, e2, e3, e4, Option.bind_eq_bind, Option.bind_some]
    exact ⟨_, _, freshIds h1.next hits, rfl, H4, l3, freshIds_length _ _, fun a => by rw [c4 a, List.count_append, List.count_append]⟩

theorem monitorMem_ok (m : Bool) (h : Heap) (H : HeapOk h) : ∃ h', monitorMem m h = some h' ∧ HeapOk h' ∧ ∀ a, h'.live.count a = h.live.count a := by
  unfold monitorMem
  cases m with
  | false => exact ⟨h, rfl, H, fun a => rfl⟩
  | true => exact step_own h 2 H

/-- C138, what is proven of it: from the seeds to the mesh no block is freed twice and no array that grows is written behind its end, whatever the spheres, the imposed points, the rounds of the front and the cells are; and besides what was
there before there remain exactly: one array of the front, an array for each imposed point that is a seed, seven arrays of the Exodus file if one is written, and the three arrays of the seeds if no mesh is made.  Missing is that these are
freed, see `C138_lost`. -/
theorem C138_late_partial (p : LatePlan) (h : Heap) (H : h.live.Nodup ∧ ∀ b ∈ h.live, b < h.next) :
    ∃ (h' : Heap) (lost : List Nat), lateMem p h = some h' ∧ h'.live.Perm (lost ++ h.live) ∧ h'.live.Nodup ∧
      lost.length = 1 + (if p.points.isSome then p.hits else 0) + (if p.mesh.isNone then 3 else if p.exodus then 7 else 0) := by
  obtain ⟨h0, e0, H0, c0⟩ := step_alloc h 3 ⟨H.1, H.2⟩
  obtain ⟨h1, ls, e1, H1, c1⟩ := sphereArrays_ok p.trees h0 H0
  obtain ⟨h2, s1, b, e2, H2, l2, i2, c2⟩ := addedSeedsMem_ok (freshIds h.next 3) (treesFreed p.trees ls ++ h.live) p.trees p.sides p.points h1 H1 rfl (fun a => by
    have := c0 a
    have := c1 a
    simp only [List.count_append]
    omega)
  have p2' : h2.live.Perm (s1 ++ (b.toList ++ (treesFreed p.trees ls ++ h.live))) := List.perm_iff_count.mpr (fun a => by
    have q := c2 a
    simp only [List.count_append] at q ⊢
    omega)
  obtain ⟨k3, s2, x, e3, H3, l3, c3⟩ := interiorSeedsMem_ok p s1 (b.toList ++ (treesFreed p.trees ls ++ h.live)) h2 H2 l2 p2'
  obtain ⟨h4, s3, lost4, e4, H4, l4, m4, c4⟩ := retrieveMem_ok p.hits p.removed b s2 ([x] ++ (treesFreed p.trees ls ++ h.live)) k3 H3 l3 (fun a => by
    have q := c3 a
    rw [show x :: s2 ++ (b.toList ++ (treesFreed p.trees ls ++ h.live)) = [x] ++ s2 ++ (b.toList ++ (treesFreed p.trees ls ++ h.live)) from rfl] at q
    simp only [List.count_append] at q ⊢
    omega)
  obtain ⟨h5, e5, H5, c5⟩ := step_free h4 (treesFreed p.trees ls) (s3 ++ (lost4 ++ ([x] ++ h.live))) H4 (fun a => by
    have q := c4 a
    simp only [List.count_append] at q ⊢
    omega)
  obtain ⟨h6, e6, H6, c6⟩ := monitorMem_ok (p.monitor && p.points.isNone) h5 H5
  have c7 : ∀ a, h6.live.count a = s3.count a + (lost4 ++ ([x] ++ h.live)).count a := fun a => by rw [c6 a, c5 a, List.count_append]
  unfold lateMem
  simp only [e0, e1, e2, e3, e4, e5, e6, Option.bind_eq_bind, Option.bind_some]
  unfold lateMesh
  cases hm : p.mesh with
  | none =>
    refine ⟨h6, [x] ++ lost4 ++ s3, rfl, List.perm_iff_count.mpr (fun a => ?_), H6.nodup, ?_⟩
    · have q := c7 a
      simp only [List.count_append] at q ⊢
      omega
    · simp only [List.length_append, m4, l4, i2, List.length_singleton, Option.isNone_none, if_true]
  | some m =>
    obtain ⟨ps, nf, meshed⟩ := m
    obtain ⟨h', lost, e, H', l, c⟩ := explicitMeshMem_ok s3 (lost4 ++ ([x] ++ h.live)) ps nf meshed p.vcg p.exodus h6 H6 c7
    refine ⟨h', [x] ++ lost4 ++ lost, e, List.perm_iff_count.mpr (fun a => ?_), H'.nodup, ?_⟩
    · have q := c a
      simp only [List.count_append] at q ⊢
      omega
    · simp only [List.length_append, m4, l, i2, List.length_singleton, Option.isNone_some, Bool.false_eq_true, if_false]

/-- C138 is false of the code: no run from the seeds to the mesh leaves the memory as it was. -/
theorem C138_lost (p : LatePlan) (h : Heap) (H : h.live.Nodup ∧ ∀ b ∈ h.live, b < h.next) : ¬ ∃ h', lateMem p h = some h' ∧ h'.live.Perm h.live := by
  rintro ⟨h', e, hp⟩
  obtain ⟨h'', lost, e', hp', -, hl⟩ := C138_late_partial p h H
  rw [e] at e'
  cases e'
  have h1 := hp.length_eq
  have h2 := hp'.length_eq
  rw [List.length_append] at h2
  omega

/-- Four threads, surface and edge spheres, a seed beside an edge, two imposed points of which one becomes a seed, one round and a last one, and a mesh with both files, beside block 0: nine blocks are lost. -/
example : ∃ (h' : Heap) (lost : List Nat), lateMem ⟨4, [true, true, false, false], [⟨2, [0, 12], true⟩], some [⟨[], false⟩, ⟨[0, 20], true⟩], 1, true, [.quiet [⟨3, none, some 2, none, none⟩]], [], true, true,
      some ([none, some ⟨[⟨0, 0⟩], ⟨2, 1⟩⟩], 1, [false, true]), true, true⟩ ⟨1, [0]⟩ = some h' ∧ h'.live.Perm (lost ++ [0]) ∧ h'.live.Nodup ∧ lost.length = 9 :=
  C138_late_partial _ _ ⟨by decide, by decide⟩

end VoroCrust
