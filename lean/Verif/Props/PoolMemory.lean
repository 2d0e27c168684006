import Verif.Model.PoolMemory
import Verif.Props.SpokesMemory
import Mathlib.Data.List.ReduceOption

/-!
# Properties of the memory of the active pool (C132)
-/

namespace VoroCrust

/-- The blocks of a pool. -/
def poolBlocks (P : PoolMem) : List Nat := kidBlocks P.kids ++ P.arrays

/-- A pool that is as it should be, in a heap where the other blocks are `base`: an empty pool has no arrays, and above level 0 every code has two places for each level. -/
structure PoolOk (base : List Nat) (P : PoolMem) (h : Heap) : Prop where
  owned : ∀ a, h.live.count a = (poolBlocks P).count a + base.count a
  null : P.kids = [] → P.arrays = []
  codes : 0 < P.level → ∀ k ∈ P.kids, ∃ b, k = some (b, 2 * P.level)

theorem kidBlocks_map_some (l : List (Nat × Nat)) : kidBlocks (l.map some) = l.map Prod.fst := by
  unfold kidBlocks
  induction l with
  | nil => rfl
  | cons a l ih =>
    rw [List.map_cons, List.reduceOption_cons_of_some, List.map_cons, List.map_cons, ih]

theorem kidBlocks_replicate (n : Nat) : kidBlocks (List.replicate n none) = [] := by
  unfold kidBlocks
  induction n with
  | zero => rfl
  | succ n ih => rw [List.replicate_succ, List.reduceOption_cons_of_none, ih]

theorem initPool_ok (base : List Nat) (n : Nat) (hn : 0 < n) (h : Heap) (hb : ∀ a, h.live.count a = base.count a) : PoolOk base (initPool n h).2 (initPool n h).1 := by
  refine ⟨fun a => ?_, fun q => ?_, fun q => absurd q (Nat.lt_irrefl 0)⟩
  · have := hb a
    simp only [initPool, poolBlocks, kidBlocks_replicate, List.count_append, List.count_nil]
    omega
  · simp only [initPool, List.replicate_eq_nil_iff] at q
    omega

theorem deletePool_ok (base extra : List Nat) (P : PoolMem) (h : Heap) (ho : ∀ a, h.live.count a = (poolBlocks P).count a + (extra ++ base).count a) (hn : P.kids = [] → P.arrays = []) :
    ∃ h', deletePool P h = some (h', ⟨[], [], P.level⟩) ∧ ∀ a, h'.live.count a = (extra ++ base).count a := by
  unfold deletePool
  by_cases hk : P.kids.length > 0
  · rw [if_pos hk]
    obtain ⟨r, h1, h2⟩ := freeBlocks_ok (kidBlocks P.kids ++ P.arrays) h.live (fun a => by have := ho a; unfold poolBlocks at this; omega)
    rw [h1]
    refine ⟨_, rfl, fun a => ?_⟩
    have h3 := ho a
    have h4 := h2 a
    unfold poolBlocks at h3
    simp only
    omega
  · rw [if_neg hk]
    have hk0 : P.kids = [] := List.length_eq_zero_iff.1 (by omega)
    have ha := hn hk0
    obtain ⟨arr, kids, lev⟩ := P
    simp only at hk0 ha
    subst hk0 ha
    refine ⟨h, rfl, fun a => ?_⟩
    have := ho a
    simpa [poolBlocks, kidBlocks, List.reduceOption] using this

theorem codesRead_ok (base : List Nat) (P : PoolMem) (h : Heap) (hp : PoolOk base P h) (need : Nat) (hneed : need ≤ 2 * P.level) : codesRead need P h = true := by
  unfold codesRead
  by_cases h0 : P.level = 0
  · rw [h0]; rfl
  · rw [Bool.or_eq_true]
    right
    rw [List.all_eq_true]
    intro k hk
    obtain ⟨b, rfl⟩ := hp.codes (by omega) k hk
    simp only [Bool.and_eq_true, decide_eq_true_eq, List.contains_iff_mem]
    refine ⟨?_, hneed⟩
    have hb : b ∈ kidBlocks P.kids := List.mem_map.2 ⟨(b, 2 * P.level), List.reduceOption_mem_iff.2 hk, rfl⟩
    have h1 := hp.owned b
    have h2 : 0 < (kidBlocks P.kids).count b := List.count_pos_iff.2 hb
    simp only [poolBlocks, List.count_append] at h1
    exact List.count_pos_iff.1 (by omega)

/-- The pool of a thread, in a heap where the other blocks are `base`. -/
structure ThreadOk (base : List Nat) (len : Nat) (t : ThreadPool) (h : Heap) : Prop where
  owned : ∀ a, h.live.count a = (threadBlocks t).count a + base.count a
  room : t.kids.length < t.cap
  codes : ∀ k ∈ t.kids, k.2 = len

theorem newThreadPool_ok (base : List Nat) (len : Nat) (h : Heap) (hb : ∀ a, h.live.count a = base.count a) : ThreadOk base len (newThreadPool h).2 (newThreadPool h).1 := by
  refine ⟨fun a => ?_, by simp [newThreadPool], by simp [newThreadPool]⟩
  have := hb a
  simp only [newThreadPool, threadBlocks, List.count_append, List.map_nil, List.count_nil]
  omega

theorem addCode_ok (base : List Nat) (len : Nat) (t : ThreadPool) (h : Heap) (ht : ThreadOk base len t h) : ∃ h' t', addCode len t h = some (h', t') ∧ ThreadOk base len t' h' ∧ t'.kids.length = t.kids.length + 1 := by
  have hcodes : ∀ k ∈ t.kids ++ [(h.next, len)], k.2 = len := by
    intro k hk
    rcases List.mem_append.1 hk with q | q
    · exact ht.codes k q
    · rw [List.mem_singleton.1 q]
  unfold addCode
  rw [if_pos ht.room]
  by_cases hg : t.kids.length + 1 = t.cap
  · rw [if_pos hg]
    obtain ⟨r, h1, h2⟩ := freeBlocks_ok t.arrays (freshIds (h.next + 1) 3 ++ h.next :: h.live) (fun a => by
      have := ht.owned a
      simp only [threadBlocks, List.count_append, List.count_cons] at this ⊢
      omega)
    rw [h1]
    refine ⟨_, _, rfl, ⟨fun a => ?_, ?_, hcodes⟩, by simp⟩
    · have h3 := ht.owned a
      have h4 := h2 a
      simp only [threadBlocks, List.count_append, List.count_cons, List.map_append, List.map_cons, List.map_nil, List.count_nil] at h3 h4 ⊢
      omega
    · simp only [List.length_append, List.length_singleton]
      omega
  · rw [if_neg hg]
    refine ⟨_, _, rfl, ⟨fun a => ?_, ?_, hcodes⟩, by simp⟩
    · have h3 := ht.owned a
      simp only [threadBlocks, List.count_append, List.count_cons, List.map_append, List.map_cons, List.map_nil, List.count_nil] at h3 ⊢
      omega
    · have := ht.room
      simp only [List.length_append, List.length_singleton]
      omega

theorem addCodes_ok (base : List Nat) (len : Nat) : ∀ (k : Nat) (t : ThreadPool) (h : Heap), ThreadOk base len t h → ∃ h' t', addCodes len k t h = some (h', t') ∧ ThreadOk base len t' h' ∧ t'.kids.length = t.kids.length + k := by
  intro k
  induction k with
  | zero => intro t h ht; exact ⟨h, t, rfl, ht, rfl⟩
  | succ k ih =>
    intro t h ht
    obtain ⟨h1, t1, a1, a2, a3⟩ := addCode_ok base len t h ht
    obtain ⟨h2, t2, b1, b2, b3⟩ := ih t1 h1 a2
    refine ⟨h2, t2, ?_, b2, by omega⟩
    unfold addCodes
    rw [a1]
    exact b1

theorem fillThreads_ok (len : Nat) : ∀ (ks : List Nat) (base : List Nat) (h : Heap), (∀ a, h.live.count a = base.count a) →
    ∃ h' ts, fillThreads len ks h = some (h', ts) ∧ (∀ a, h'.live.count a = (ts.flatMap ThreadPool.arrays).count a + ((ts.flatMap ThreadPool.kids).map Prod.fst).count a + base.count a) ∧ (∀ k ∈ ts.flatMap ThreadPool.kids, k.2 = len) ∧
      (ts.flatMap ThreadPool.kids).length = ks.sum := by
  intro ks
  induction ks with
  | nil => intro base h hb; exact ⟨h, [], rfl, fun a => by simpa using hb a, by simp, rfl⟩
  | cons k ks ih =>
    intro base h hb
    obtain ⟨h1, t, a1, a2, a3⟩ := addCodes_ok base len k _ _ (newThreadPool_ok base len h hb)
    obtain ⟨h2, ts, b1, b2, b3, b4⟩ := ih (threadBlocks t ++ base) h1 (fun a => by rw [a2.owned a, List.count_append])
    refine ⟨h2, t :: ts, ?_, fun a => ?_, ?_, ?_⟩
    · unfold fillThreads
      rw [a1]
      simp only [b1]
    · rw [b2 a]
      simp only [threadBlocks, List.flatMap_cons, List.map_append, List.count_append]
      omega
    · intro q hq
      rw [List.flatMap_cons] at hq
      rcases List.mem_append.1 hq with q' | q'
      · exact a2.codes q q'
      · exact b3 q q'
    · rw [List.flatMap_cons, List.length_append, b4, a3, List.sum_cons]
      simp [newThreadPool]

theorem refineFacePool_ok (base : List Nat) (work : List Nat) (P : PoolMem) (h : Heap) (hp : PoolOk base P h) : ∃ h' P', refineFacePool work P h = some (h', P') ∧ PoolOk base P' h' ∧ P'.kids.length = 4 * work.sum := by
  have hsum : ∀ l : List Nat, (l.map (4 * ·)).sum = 4 * l.sum := by
    intro l
    induction l with
    | nil => rfl
    | cons a l ih => rw [List.map_cons, List.sum_cons, List.sum_cons, ih, Nat.mul_add]
  unfold refineFacePool
  rw [if_pos (codesRead_ok base P h hp _ (Nat.le_refl _))]
  obtain ⟨h1, ts, a1, a2, a3, a4⟩ := fillThreads_ok (2 * (P.level + 1)) (work.map (4 * ·)) (poolBlocks P ++ base) h (fun a => by rw [hp.owned a, List.count_append])
  obtain ⟨h2, b1, b2⟩ := deletePool_ok base (ts.flatMap ThreadPool.arrays ++ (ts.flatMap ThreadPool.kids).map Prod.fst) P h1 (fun a => by
    rw [a2 a]
    simp only [List.count_append]
    omega) hp.null
  rw [a1]
  simp only [b1]
  rw [hsum] at a4
  by_cases hk : (ts.flatMap ThreadPool.kids).length > 0
  · rw [if_pos hk]
    obtain ⟨r, c1, c2⟩ := freeBlocks_ok (ts.flatMap ThreadPool.arrays) (freshIds h2.next 3 ++ h2.live) (fun a => by
      have := b2 a
      simp only [List.count_append] at this ⊢
      omega)
    rw [c1]
    refine ⟨_, _, rfl, ⟨fun a => ?_, fun q => ?_, fun _ k hk' => ?_⟩, by rw [List.length_map, a4]⟩
    · have h3 := b2 a
      have h4 := c2 a
      simp only [poolBlocks, kidBlocks_map_some, List.count_append] at h3 h4 ⊢
      omega
    · simp only [List.map_eq_nil_iff] at q
      rw [q] at hk
      simp at hk
    · obtain ⟨q, hq, rfl⟩ := List.mem_map.1 hk'
      exact ⟨q.1, by rw [← a3 q hq]⟩
  · rw [if_neg hk]
    have hnil : ts.flatMap ThreadPool.kids = [] := List.length_eq_zero_iff.1 (by omega)
    obtain ⟨r, c1, c2⟩ := freeBlocks_ok (ts.flatMap ThreadPool.arrays) h2.live (fun a => by
      have := b2 a
      simp only [List.count_append] at this ⊢
      omega)
    rw [c1]
    refine ⟨_, _, rfl, ⟨fun a => ?_, fun _ => rfl, fun _ k hk' => by simp at hk'⟩, by simp only [List.length_nil]; omega⟩
    have h3 := b2 a
    have h4 := c2 a
    rw [hnil] at h3
    simp only [poolBlocks, kidBlocks, List.reduceOption_nil, List.map_nil, List.count_append, List.count_nil] at h3 h4 ⊢
    omega

theorem refineEdgePool_ok (base : List Nat) (k : Nat) (P : PoolMem) (h : Heap) (hp : PoolOk base P h) : ∃ h' P', refineEdgePool k P h = some (h', P') ∧ PoolOk base P' h' ∧ P'.kids.length = 2 * k := by
  unfold refineEdgePool
  rw [if_pos (codesRead_ok base P h hp _ (by omega))]
  obtain ⟨h1, t, a1, a2, a3⟩ := addCodes_ok (poolBlocks P ++ base) (2 * (P.level + 1)) (2 * k) _ _ (newThreadPool_ok (poolBlocks P ++ base) (2 * (P.level + 1)) h (fun a => by rw [hp.owned a, List.count_append]))
  have a3 : t.kids.length = 2 * k := by rw [a3]; simp [newThreadPool]
  obtain ⟨h2, b1, b2⟩ := deletePool_ok base (threadBlocks t) P h1 (fun a => by
    rw [a2.owned a]
    simp only [List.count_append]
    omega) hp.null
  rw [a1]
  simp only [b1]
  by_cases hk : t.kids.length > 0
  · rw [if_pos hk]
    refine ⟨_, _, rfl, ⟨fun a => ?_, fun q => ?_, fun _ q hq => ?_⟩, by rw [List.length_map, a3]⟩
    · have h3 := b2 a
      simp only [poolBlocks, kidBlocks_map_some, threadBlocks, List.count_append] at h3 ⊢
      omega
    · simp only [List.map_eq_nil_iff] at q
      rw [q] at hk
      simp at hk
    · obtain ⟨c, hc, rfl⟩ := List.mem_map.1 hq
      exact ⟨c.1, by rw [← a2.codes c hc]⟩
  · rw [if_neg hk]
    have hnil : t.kids = [] := List.length_eq_zero_iff.1 (by omega)
    obtain ⟨r, c1, c2⟩ := freeBlocks_ok t.arrays h2.live (fun a => by
      have := b2 a
      simp only [threadBlocks, List.count_append] at this ⊢
      omega)
    rw [c1]
    refine ⟨_, _, rfl, ⟨fun a => ?_, fun _ => rfl, fun _ k hk' => by simp at hk'⟩, by simp only [List.length_nil]; omega⟩
    have h3 := b2 a
    have h4 := c2 a
    simp only [threadBlocks, hnil] at h3
    simp only [poolBlocks, kidBlocks, List.reduceOption_nil, List.map_nil, List.count_append, List.count_nil] at h3 h4 ⊢
    omega

/-! ## C132 -/

/-- **C132 (a).** A refinement of a pool of faces or of edges, whatever is covered: it frees nothing twice, reads no code past its end and writes past no array; of the blocks exactly those of the new pool and those of others are left;
and the new pool has four children of each face, or two of each edge, that is not covered. -/
theorem C132_refine (base : List Nat) (faces : Bool) (w : List Nat) (P : PoolMem) (h : Heap) (hp : PoolOk base P h) :
    ∃ h' P', refinePool faces w P h = some (h', P') ∧ PoolOk base P' h' ∧ h'.live.Perm (poolBlocks P' ++ base) ∧ P'.kids.length = (if faces then 4 else 2) * w.sum := by
  unfold refinePool
  cases faces with
  | true =>
    obtain ⟨h', P', a1, a2, a3⟩ := refineFacePool_ok base w P h hp
    exact ⟨h', P', a1, a2, List.perm_iff_count.2 fun a => by rw [a2.owned a, List.count_append], a3⟩
  | false =>
    obtain ⟨h', P', a1, a2, a3⟩ := refineEdgePool_ok base w.sum P h hp
    exact ⟨h', P', a1, a2, List.perm_iff_count.2 fun a => by rw [a2.owned a, List.count_append], a3⟩

theorem refinePools_ok (base : List Nat) (faces : Bool) : ∀ (ws : List (List Nat)) (P : PoolMem) (h : Heap), PoolOk base P h → ∃ h' P' b, refinePools faces ws P h = some (h', P', b) ∧ PoolOk base P' h' ∧ (b = true → P'.kids = []) := by
  intro ws
  induction ws with
  | nil => intro P h hp; exact ⟨h, P, false, rfl, hp, by simp⟩
  | cons w ws ih =>
    intro P h hp
    obtain ⟨h1, P1, a1, a2, _⟩ := C132_refine base faces w P h hp
    unfold refinePools
    rw [a1]
    simp only
    by_cases h0 : P1.kids.length = 0
    · rw [if_pos h0]
      exact ⟨h1, P1, true, rfl, a2, fun _ => List.length_eq_zero_iff.1 h0⟩
    · rw [if_neg h0]
      exact ih P1 h1 a2

/-- **C132 (b).** A whole run: any number of pools with at least one entry, one after another, each refined until it is empty. At every point where the run may stop the blocks that are left are those of the pool at that point and those of
others; and when every pool was emptied only those of others. -/
theorem C132_life : ∀ (l : List (Bool × Nat × List (List Nat))) (base : List Nat) (next : Nat), (∀ e ∈ l, 0 < e.2.1) →
    ∃ h P b, poolLife l nullPool ⟨next, base⟩ = some (h, P, b) ∧ h.live.Perm (poolBlocks P ++ base) ∧ (b = true → h.live.Perm base) := by
  have key : ∀ (l : List (Bool × Nat × List (List Nat))) (base : List Nat) (P : PoolMem) (h : Heap), (∀ e ∈ l, 0 < e.2.1) → (∀ a, h.live.count a = base.count a) → P.kids = [] → P.arrays = [] →
      ∃ h' P' b, poolLife l P h = some (h', P', b) ∧ PoolOk base P' h' ∧ (b = true → P'.kids = []) := by
    intro l
    induction l with
    | nil =>
      intro base P h _ hb hk ha
      refine ⟨h, P, true, rfl, ⟨fun a => ?_, fun _ => ha, fun _ k q => by rw [hk] at q; simp at q⟩, fun _ => hk⟩
      rw [hb a]
      simp [poolBlocks, hk, ha, kidBlocks, List.reduceOption]
    | cons e l ih =>
      intro base P h hl hb _ _
      obtain ⟨faces, n, ws⟩ := e
      obtain ⟨h1, P1, b, a1, a2, a3⟩ := refinePools_ok base faces ws _ _ (initPool_ok base n (hl (faces, n, ws) (by simp)) h hb)
      unfold poolLife
      rw [a1]
      cases b with
      | false => exact ⟨h1, P1, false, rfl, a2, by simp⟩
      | true =>
        have hk := a3 rfl
        have ha := a2.null hk
        refine ih base P1 h1 (fun e he => hl e (List.mem_cons_of_mem _ he)) (fun a => ?_) hk ha
        rw [a2.owned a]
        simp [poolBlocks, hk, ha, kidBlocks, List.reduceOption]
  intro l base next hl
  obtain ⟨h, P, b, a1, a2, a3⟩ := key l base nullPool ⟨next, base⟩ hl (fun _ => rfl) rfl rfl
  refine ⟨h, P, b, a1, List.perm_iff_count.2 fun a => by rw [a2.owned a, List.count_append], fun hb => ?_⟩
  have hk := a3 hb
  have ha := a2.null hk
  exact List.perm_iff_count.2 fun a => by rw [a2.owned a]; simp [poolBlocks, hk, ha, kidBlocks, List.reduceOption]

/-- **C132 (c).** A run in which every pool gets a refinement that covers everything ends with every pool emptied. -/
theorem C132_emptied : ∀ (l : List (Bool × Nat × List (List Nat))) (base : List Nat) (next : Nat), (∀ e ∈ l, 0 < e.2.1) → (∀ e ∈ l, ∃ w ∈ e.2.2, w.sum = 0) →
    ∃ h P, poolLife l nullPool ⟨next, base⟩ = some (h, P, true) ∧ h.live.Perm base := by
  have ends : ∀ (base : List Nat) (faces : Bool) (ws : List (List Nat)) (P : PoolMem) (h h' : Heap) (P' : PoolMem) (b : Bool), PoolOk base P h → (∃ w ∈ ws, w.sum = 0) → refinePools faces ws P h = some (h', P', b) → b = true := by
    intro base faces ws
    induction ws with
    | nil => intro P h h' P' b _ hw; simp at hw
    | cons w ws ih =>
      intro P h h' P' b hp hw hr
      obtain ⟨h1, P1, a1, a2, _, a4⟩ := C132_refine base faces w P h hp
      unfold refinePools at hr
      rw [a1] at hr
      simp only at hr
      by_cases h0 : P1.kids.length = 0
      · rw [if_pos h0] at hr
        cases hr
        rfl
      · rw [if_neg h0] at hr
        refine ih P1 h1 h' P' b a2 ?_ hr
        obtain ⟨v, hv, hs⟩ := hw
        rcases List.mem_cons.1 hv with rfl | hv
        · rw [hs, Nat.mul_zero] at a4
          exact absurd a4 h0
        · exact ⟨v, hv, hs⟩
  have key : ∀ (l : List (Bool × Nat × List (List Nat))) (base : List Nat) (P : PoolMem) (h : Heap), (∀ e ∈ l, 0 < e.2.1) → (∀ e ∈ l, ∃ w ∈ e.2.2, w.sum = 0) → (∀ a, h.live.count a = base.count a) →
      ∃ h' P', poolLife l P h = some (h', P', true) ∧ ∀ a, h'.live.count a = base.count a := by
    intro l
    induction l with
    | nil => intro base P h _ _ hb; exact ⟨h, P, rfl, hb⟩
    | cons e l ih =>
      intro base P h hl hw hb
      obtain ⟨faces, n, ws⟩ := e
      have hi := initPool_ok base n (hl (faces, n, ws) (by simp)) h hb
      obtain ⟨h1, P1, b, a1, a2, a3⟩ := refinePools_ok base faces ws _ _ hi
      have hbt := ends base faces ws _ _ h1 P1 b hi (hw (faces, n, ws) (by simp)) a1
      subst hbt
      have hk := a3 rfl
      have ha := a2.null hk
      obtain ⟨h2, P2, c1, c2⟩ := ih base P1 h1 (fun e he => hl e (List.mem_cons_of_mem _ he)) (fun e he => hw e (List.mem_cons_of_mem _ he)) (fun a => by rw [a2.owned a]; simp [poolBlocks, hk, ha, kidBlocks, List.reduceOption])
      refine ⟨h2, P2, ?_, c2⟩
      unfold poolLife
      rw [a1]
      exact c1
  intro l base next hl hw
  obtain ⟨h, P, a1, a2⟩ := key l base nullPool ⟨next, base⟩ hl hw (fun _ => rfl)
  exact ⟨h, P, a1, List.perm_iff_count.2 a2⟩

/-! ## Examples -/

/-- Two threads and three faces: of these two are not covered, then of their children one, then none; after that a pool of edges. -/
example : (poolLife [(true, 3, [[2, 0], [0, 1], [0, 0]]), (false, 1, [[1], [0]])] nullPool ⟨10, [7]⟩).map (fun r => (r.1.live, r.2.2)) = some ([7], true) := by decide +kernel

/-- The arrays of a thread grow: 30 faces have 120 children. -/
example : (poolLife [(true, 30, [[30], [0]])] nullPool ⟨10, [7]⟩).map (fun r => (r.1.live, r.2.2)) = some ([7], true) := by decide +kernel

end VoroCrust
