import Verif.Model.PoolMemory

/-!
# Model of the memory of the interior seeding

The loop of `MeshingVoronoiMesher::generate_interior_seeds` (MeshingVoronoiMesher.cpp:994-1558) has in every round arrays of the front, of its active and of its inactive seeds, and of the new spheres of every active seed, and replaces
the arrays of the seeds and of their tree from time to time.  A block is a number as in `TreeMemory`, and `none` is the freeing of a block that is not allocated, or a write outside of an array of neighbours.  The trees of the spheres and the samplers of the threads are left out: they
are allocated before the loop and freed after it.  The active seeds are taken one after the other, in the code they are shared
between the threads.  Between two arrays that are allocated or freed in a row the order is not kept, and new arrays are allocated before the old
ones are freed; the code does so for the seeds, and for the tree in two steps the other way round.
-/

namespace VoroCrust

/-- The arrays that live from one round to the next: `front_indices`; `seeds`, `seeds_region_id` and `seeds_sizing`; the tree of the seeds and its three arrays of the order; `interior_spheres` and its regions. -/
structure FrontMem where
  front : Nat
  seeds : List Nat
  tree : List Nat
  interior : List Nat

/-- What is found around an active seed: the number of the seeds, of the interior spheres, and of the surface, edge and corner spheres in the neighbourhood; nothing if there are no such spheres at all. -/
structure SeedFound where
  seeds : Nat
  interior : Option Nat
  surface : Option Nat
  edge : Option Nat
  corner : Option Nat

/-- What happens in a round with the active seeds `fs`: no new seed; new seeds, for which `interior_spheres` has room; new seeds that are moved to the seeds with those before, after which the sizes are made Lipschitz or not. -/
inductive FrontRound where
  | quiet (fs : List SeedFound)
  | room (fs : List SeedFound)
  | flush (fs : List SeedFound) (lipschitz : Bool)

/-- The active seeds of a round. -/
def FrontRound.active : FrontRound → List SeedFound
  | quiet fs => fs
  | room fs => fs
  | flush fs _ => fs

/-- `k` neighbours are written into the array `b` of size `cap` with `num` entries, which is replaced by one of twice the size when it is full (MeshingVoronoiMesher.cpp:3029-3042, 1149-1170). -/
def growFound : Nat → Nat → Nat → Nat → Heap → Option (Heap × Nat)
  | 0, b, _, _, h => some (h, b)
  | k + 1, b, cap, num, h =>
    if num < cap ∧ b ∈ h.live then
      if num + 1 = cap then
        match freeBlocks [b] (freshIds h.next 1 ++ h.live) with
        | none => none
        | some live => growFound k h.next (2 * cap) (num + 1) ⟨h.next + 1, live⟩
      else growFound k b cap (num + 1) h
    else none

/-- `get_tree_points_in_sphere` (MeshingVoronoiMesher.cpp:2746-2762), and the same for the interior spheres (MeshingVoronoiMesher.cpp:1147-1175): the array of `k` neighbours, null if there is none. -/
def foundArray (k : Nat) (h : Heap) : Option (Heap × List Nat) :=
  match growFound k h.next 10 0 ⟨h.next + 1, freshIds h.next 1 ++ h.live⟩ with
  | none => none
  | some (h, b) =>
    if k = 0 then
      match freeBlocks [b] h.live with
      | none => none
      | some live => some (⟨h.next, live⟩, [])
    else some (h, [b])

/-- The search if there is something to search. -/
def foundIf : Option Nat → Heap → Option (Heap × List Nat)
  | none, h => some (h, [])
  | some k, h => foundArray k h

/-- One active seed (MeshingVoronoiMesher.cpp:1110-1385): the arrays of its neighbours, `x`, `spheres` and `dart` are freed, its row of `new_spheres` stays. -/
def activeSeed (f : SeedFound) (h : Heap) : Option (Heap × Nat) :=
  let x := h.next
  match foundArray f.seeds ⟨h.next + 1, freshIds h.next 1 ++ h.live⟩ with
  | none => none
  | some (h, ns) =>
    match foundIf f.interior h with
    | none => none
    | some (h, is) =>
      match foundIf f.surface h with
      | none => none
      | some (h, ss) =>
        match foundIf f.edge h with
        | none => none
        | some (h, es) =>
          match foundIf f.corner h with
          | none => none
          | some (h, cs) =>
            match freeBlocks (ss ++ es ++ cs) (freshIds h.next 3 ++ h.live) with
            | none => none
            | some live =>
              match freeBlocks (is ++ [x, h.next + 1, h.next] ++ ns) live with
              | none => none
              | some live => some (⟨h.next + 3, live⟩, h.next + 2)

/-- All active seeds of a round (MeshingVoronoiMesher.cpp:1108-1386). -/
def activeSeeds : List SeedFound → Heap → Option (Heap × List Nat)
  | [], h => some (h, [])
  | f :: fs, h =>
    match activeSeed f h with
    | none => none
    | some (h, row) =>
      match activeSeeds fs h with
      | none => none
      | some (h, rows) => some (h, row :: rows)

/-- The blocks of a round (MeshingVoronoiMesher.cpp:1009-1102, 1108-1386): `active_front_seeds`, `inactive_front_seeds`, `num_new_spheres`, `new_spheres` and its rows. -/
structure RoundMem where
  active : Nat
  inactive : Nat
  numNew : Nat
  news : Nat
  rows : List Nat

/-- The start of a round (MeshingVoronoiMesher.cpp:1009-1102, 1108-1386) with the active seeds `fs`: `is_active_seed` and `front_spheres` are freed again, and `front_indices` with them. -/
def startRound (fs : List SeedFound) (F : FrontMem) (h : Heap) : Option (Heap × RoundMem) :=
  match freeBlocks [h.next + 1] (freshIds h.next 2 ++ h.live) with
  | none => none
  | some live =>
    match freeBlocks [h.next, F.front] (freshIds (h.next + 2) 2 ++ live) with
    | none => none
    | some live =>
      match activeSeeds fs ⟨h.next + 6, freshIds (h.next + 4) 2 ++ live⟩ with
      | none => none
      | some (h', rows) => some (h', ⟨h.next + 2, h.next + 3, h.next + 4, h.next + 5, rows⟩)

/-- The blocks that every round frees at its end (MeshingVoronoiMesher.cpp:1433-1435, 1441-1443, 1476-1479, 1516-1522). -/
def RoundMem.done (R : RoundMem) : List Nat := R.active :: R.rows ++ [R.news, R.numNew]

/-- New seeds take the place of the old ones, and the tree is made again (MeshingVoronoiMesher.cpp:1401-1431, 1484-1541). -/
def renewSeeds (F : FrontMem) (h : Heap) : Option (Heap × FrontMem) :=
  match freeBlocks F.seeds (freshIds h.next 3 ++ h.live) with
  | none => none
  | some live =>
    match freeBlocks F.tree (freshIds (h.next + 3) 5 ++ live) with
    | none => none
    | some live => some (⟨h.next + 3 + 5, live⟩, { F with seeds := freshIds h.next 3, tree := freshIds (h.next + 3) 5 })

/-- `seed_sizing_sorted` (MeshingVoronoiMesher.cpp:1549-1553, 1564-1568). -/
def sortedSizesMem (h : Heap) : Option Heap :=
  match freeBlocks [h.next] (freshIds h.next 1 ++ h.live) with
  | none => none
  | some live => some ⟨h.next + 1, live⟩

/-- A round that is not the last (MeshingVoronoiMesher.cpp:994-1558). -/
def frontMemRound (r : FrontRound) (F : FrontMem) (h : Heap) : Option (Heap × FrontMem) :=
  match startRound r.active F h with
  | none => none
  | some (h, R) =>
    match r with
    | .quiet _ =>
      match freeBlocks R.done h.live with
      | none => none
      | some live => some (⟨h.next, live⟩, { F with front := R.inactive })
    | .room _ =>
      match freeBlocks (R.inactive :: R.done) (freshIds h.next 1 ++ h.live) with
      | none => none
      | some live => some (⟨h.next + 1, live⟩, { F with front := h.next })
    | .flush _ lip =>
      match freeBlocks (R.inactive :: R.done) (freshIds h.next 1 ++ h.live) with
      | none => none
      | some live =>
        match renewSeeds { F with front := h.next } ⟨h.next + 1, live⟩ with
        | none => none
        | some (h, F) =>
          if lip then
            match sortedSizesMem h with
            | none => none
            | some h => some (h, F)
          else some (h, F)

/-- The last round and what comes after it (MeshingVoronoiMesher.cpp:1396-1437, 1560-1584): no new seed and no inactive one; `waiting` if there are spheres in `interior_spheres`, which become seeds.  The result is the heap and the arrays of
the seeds. -/
def lastRound (fs : List SeedFound) (waiting : Bool) (F : FrontMem) (h : Heap) : Option (Heap × List Nat) :=
  match startRound fs F h with
  | none => none
  | some (h, R) =>
    match (if waiting then renewSeeds F h else some (h, F)) with
    | none => none
    | some (h, F) =>
      match freeBlocks R.done h.live with
      | none => none
      | some live =>
        match sortedSizesMem ⟨h.next, live⟩ with
        | none => none
        | some h =>
          match freeBlocks (F.tree ++ F.interior) h.live with
          | none => none
          | some live => some (⟨h.next, live⟩, F.seeds)

/-- All rounds. -/
def frontMemRounds : List FrontRound → FrontMem → Heap → Option (Heap × FrontMem)
  | [], F, h => some (h, F)
  | r :: rs, F, h =>
    match frontMemRound r F h with
    | none => none
    | some (h, F) => frontMemRounds rs F h

/-- `generate_interior_seeds` (MeshingVoronoiMesher.cpp:839-1618) with the arrays `seeds`, whose tree (MeshingVoronoiMesher.cpp:852-858), front and spheres (MeshingVoronoiMesher.cpp:975, 988-989) are allocated first.  The sizes of the first seeds are made Lipschitz before (MeshingVoronoiMesher.cpp:864-870). -/
def seedingLife (seeds : List Nat) (rs : List FrontRound) (fs : List SeedFound) (waiting : Bool) (h : Heap) : Option (Heap × List Nat) :=
  let tree := freshIds h.next 5
  match sortedSizesMem ⟨h.next + 5, tree ++ h.live⟩ with
  | none => none
  | some h =>
    match frontMemRounds rs ⟨h.next, seeds, tree, freshIds (h.next + 1) 2⟩ ⟨h.next + 3, freshIds h.next 3 ++ h.live⟩ with
    | none => none
    | some (h, F) => lastRound fs waiting F h

end VoroCrust
