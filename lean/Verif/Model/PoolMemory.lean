import Verif.Model.SpokesMemory

/-!
# Model of the memory of the active pool

The active pool of `MeshingVoroCrustSampler` has three arrays over its entries, and for every entry an array with its code, which is null at level 0.  As in `TreeMemory` a block is a number, and `none` is the freeing of a block that is
not allocated, a read of a code that is not there or too short, or a write past the end of an array.  What a function allocates and frees itself is left out, except for the pools of the threads.
-/

namespace VoroCrust

/-- The heap: the next number and the allocated blocks. -/
structure Heap where
  next : Nat
  live : List Nat

/-- The pool: `_active_pool_parent_face`, `_active_pool_children` and `_active_pool_cdf` are `arrays`, null if the list is empty; `kids` are the entries of `_active_pool_children`, a block with its length, of which there are
`_active_pool_size`; `level` is `_active_pool_ref_level`. -/
structure PoolMem where
  arrays : List Nat
  kids : List (Option (Nat × Nat))
  level : Nat

/-- The pool of a sampler before it is used (MeshingVoroCrustSampler.cpp:57). -/
def nullPool : PoolMem := ⟨[], [], 0⟩

/-- The blocks of the codes. -/
def kidBlocks (kids : List (Option (Nat × Nat))) : List Nat := kids.reduceOption.map Prod.fst

/-- `initiate_active_pool` and `initiate_active_pool_edges` (MeshingVoroCrustSampler.cpp:2360-2383, 2596-2620) with `n` entries.  What was there before is overwritten. -/
def initPool (n : Nat) (h : Heap) : Heap × PoolMem :=
  (⟨h.next + 3, freshIds h.next 3 ++ h.live⟩, ⟨freshIds h.next 3, List.replicate n none, 0⟩)

/-- `delete_active_pool` (MeshingVoroCrustSampler.cpp:3092-3108). -/
def deletePool (P : PoolMem) (h : Heap) : Option (Heap × PoolMem) :=
  if P.kids.length > 0 then
    match freeBlocks (kidBlocks P.kids ++ P.arrays) h.live with
    | none => none
    | some live => some (⟨h.next, live⟩, ⟨[], [], P.level⟩)
  else some (h, P)

/-- The reads of the codes of all entries, `need` places of each (MeshingVoroCrustSampler.cpp:2485-2487, 2547-2550, 2945-2948, 3044-3048): there are none at level 0. -/
def codesRead (need : Nat) (P : PoolMem) (h : Heap) : Bool :=
  P.level == 0 || P.kids.all fun k =>
    match k with
    | none => false
    | some (b, len) => h.live.contains b && decide (need ≤ len)

/-- The pool of a thread: its three arrays of `cap` entries, and the codes. -/
structure ThreadPool where
  arrays : List Nat
  kids : List (Nat × Nat)
  cap : Nat

/-- The blocks of the pool of a thread. -/
def threadBlocks (t : ThreadPool) : List Nat := t.arrays ++ t.kids.map Prod.fst

/-- A new pool (MeshingVoroCrustSampler.cpp:2390-2393, 2789-2793). -/
def newThreadPool (h : Heap) : Heap × ThreadPool := (⟨h.next + 3, freshIds h.next 3 ++ h.live⟩, ⟨freshIds h.next 3, [], 100⟩)

/-- A child (MeshingVoroCrustSampler.cpp:2544-2568, 3041-3082): its code with `len` places, and `add_entry` three times, with which the three arrays grow together. -/
def addCode (len : Nat) (t : ThreadPool) (h : Heap) : Option (Heap × ThreadPool) :=
  if t.kids.length < t.cap then
    if t.kids.length + 1 = t.cap then
      match freeBlocks t.arrays (freshIds (h.next + 1) 3 ++ h.next :: h.live) with
      | none => none
      | some live => some (⟨h.next + 4, live⟩, ⟨freshIds (h.next + 1) 3, t.kids ++ [(h.next, len)], t.cap * 2⟩)
    else some (⟨h.next + 1, h.next :: h.live⟩, ⟨t.arrays, t.kids ++ [(h.next, len)], t.cap⟩)
  else none

/-- `k` children. -/
def addCodes (len : Nat) : Nat → ThreadPool → Heap → Option (Heap × ThreadPool)
  | 0, t, h => some (h, t)
  | k + 1, t, h =>
    match addCode len t h with
    | none => none
    | some (h, t) => addCodes len k t h

/-- The threads, one after another; `work` tells for each how many children it makes. -/
def fillThreads (len : Nat) : List Nat → Heap → Option (Heap × List ThreadPool)
  | [], h => some (h, [])
  | k :: ks, h =>
    match addCodes len k (newThreadPool h).2 (newThreadPool h).1 with
    | none => none
    | some (h, t) =>
      match fillThreads len ks h with
      | none => none
      | some (h, ts) => some (h, t :: ts)

/-- `refine_active_pool` (MeshingVoroCrustSampler.cpp:2757-2875): `work` tells for each thread how many faces are not covered. -/
def refineFacePool (work : List Nat) (P : PoolMem) (h : Heap) : Option (Heap × PoolMem) :=
  if codesRead (2 * P.level) P h then
    match fillThreads (2 * (P.level + 1)) (work.map (4 * ·)) h with
    | none => none
    | some (h, ts) =>
      match deletePool P h with
      | none => none
      | some (h, P) =>
        if (ts.flatMap ThreadPool.kids).length > 0 then
          match freeBlocks (ts.flatMap ThreadPool.arrays) (freshIds h.next 3 ++ h.live) with
          | none => none
          | some live => some (⟨h.next + 3, live⟩, ⟨freshIds h.next 3, (ts.flatMap ThreadPool.kids).map some, P.level + 1⟩)
        else
          match freeBlocks (ts.flatMap ThreadPool.arrays) h.live with
          | none => none
          | some live => some (⟨h.next, live⟩, P)
  else none

/-- `refine_active_pool_edges` (MeshingVoroCrustSampler.cpp:2385-2430), where `k` edges are not covered. -/
def refineEdgePool (k : Nat) (P : PoolMem) (h : Heap) : Option (Heap × PoolMem) :=
  if codesRead P.level P h then
    match addCodes (2 * (P.level + 1)) (2 * k) (newThreadPool h).2 (newThreadPool h).1 with
    | none => none
    | some (h, t) =>
      match deletePool P h with
      | none => none
      | some (h, P) =>
        if t.kids.length > 0 then some (h, ⟨t.arrays, t.kids.map some, P.level + 1⟩)
        else
          match freeBlocks t.arrays h.live with
          | none => none
          | some live => some (⟨h.next, live⟩, P)
  else none

/-- The refinements of one round; a list with one entry for the edges, with one for each thread for the faces. -/
def refinePool (faces : Bool) (w : List Nat) (P : PoolMem) (h : Heap) : Option (Heap × PoolMem) := if faces then refineFacePool w P h else refineEdgePool w.sum P h

/-- Refinements up to the first after which the pool is empty (MeshingVoroCrustSampler.cpp:1286-1292, 1484-1490); the flag tells whether there was one. -/
def refinePools (faces : Bool) : List (List Nat) → PoolMem → Heap → Option (Heap × PoolMem × Bool)
  | [], P, h => some (h, P, false)
  | w :: ws, P, h =>
    match refinePool faces w P h with
    | none => none
    | some (h, P) => if P.kids.length = 0 then some (h, P, true) else refinePools faces ws P h

/-- The pools of a run, one after another: for each its kind, its number of entries and its refinements (MeshingVoroCrustSampler.cpp:1199-1294, 1427-1493).  The flag tells whether every pool was emptied. -/
def poolLife : List (Bool × Nat × List (List Nat)) → PoolMem → Heap → Option (Heap × PoolMem × Bool)
  | [], P, h => some (h, P, true)
  | (faces, n, ws) :: l, _, h =>
    match refinePools faces ws (initPool n h).2 (initPool n h).1 with
    | none => none
    | some (h, P, true) => poolLife l P h
    | some (h, P, false) => some (h, P, false)

end VoroCrust
