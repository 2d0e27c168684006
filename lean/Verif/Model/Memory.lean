/-!
# Model of `MeshingMemoryHandler` (growable arrays, quicksort)

An array of size `n` is modelled by its size and a function `ℕ → α`; an access
at `k` with `k ≥ n` is undefined behaviour and makes the whole call `none`.
-/

namespace VoroCrust

/-- A heap array with its bookkeeping variables.  A cell that was allocated but
never written is `none`.
Models the `(I, num_entries, capacity)` triple of
MeshingMemoryHandler.cpp:50-141 and MeshingSmartTree.cpp:3147-3181. -/
structure Buf (α : Type) where
  /-- allocated cells -/
  cells : List (Option α)
  /-- `num_entries` -/
  num : Nat
  /-- `capacity` -/
  cap : Nat

/-- `add_entry` (MeshingMemoryHandler.cpp:50-66, 69-85, 87-103, 106-122,
125-141; MeshingSmartTree.cpp:3147-3181).  The write `I[num_entries] = entry`
and the copy loop `tmp[i] = I[i]` are bounds checked; `none` is undefined
behaviour. -/
def addEntry {α : Type} (e : α) (b : Buf α) : Option (Buf α) :=
  if b.num < b.cells.length then
    let cells := b.cells.set b.num (some e)
    let num := b.num + 1
    if num = b.cap then
      let cap := b.cap * 2
      -- `tmp = new T[capacity]; for i < num_entries: tmp[i] = I[i]`
      if num ≤ cells.length ∧ num ≤ cap then
        some { cells := cells.take num ++ List.replicate (cap - num) none, num := num, cap := cap }
      else none
    else some { cells := cells, num := num, cap := b.cap }
  else none

/-- A history of `add_entry` calls. -/
def addEntries {α : Type} : List α → Buf α → Option (Buf α)
  | [], b => some b
  | e :: es, b => (addEntry e b).bind (addEntries es)

/-- `tmp = x[i]; x[i] = x[j]; x[j] = tmp` (e.g. MeshingMemoryHandler.cpp:170-172). -/
def swapAt {α : Type} (x : Nat → α) (i j : Nat) : Nat → α :=
  fun k => if k = j then x i else if k = i then x j else x k

/-- `while (x[i] < pivot) i++` (MeshingMemoryHandler.cpp:164-165), `none` when
an index outside the array of size `n` is read. -/
def scanUp {κ : Type} (lt : κ → κ → Bool) (n : Nat) (x : Nat → κ) (p : κ) (i : Nat) : Option Nat :=
  if i < n then
    if lt (x i) p then scanUp lt n x p (i + 1) else some i
  else none
termination_by n - i

/-- `while (x[j] > pivot) j--` (MeshingMemoryHandler.cpp:166-167).  Decrementing
the unsigned `j` below zero wraps to a huge index, whose read is undefined. -/
def scanDown {κ : Type} (lt : κ → κ → Bool) (n : Nat) (x : Nat → κ) (p : κ) : Nat → Option Nat
  | 0 => if 0 < n then (if lt p (x 0) then none else some 0) else none
  | j + 1 => if j + 1 < n then (if lt p (x (j + 1)) then scanDown lt n x p j else some (j + 1)) else none

/-- Result of the partition loop: the arrays and the final cursors. -/
structure PartState (κ C : Type) where
  x : Nat → κ
  c : C
  i : Nat
  j : Nat

/-- The partition loop `while (i <= j) {...}` (MeshingMemoryHandler.cpp:162-177,
197-216, 237-256; MeshingRandomSampler.cpp:271-299; MeshingSmartTree.cpp:3192-3229).
`sw i j` performs the swaps of the companion arrays (none, one, or three of
them).  `fuel` bounds the number of iterations. -/
def partitionLoop {κ C : Type} (lt : κ → κ → Bool) (n : Nat) (sw : Nat → Nat → C → C) (p : κ) :
    Nat → PartState κ C → Option (PartState κ C)
  | 0, _ => none
  | fuel + 1, s =>
    if s.i ≤ s.j then
      match scanUp lt n s.x p s.i, scanDown lt n s.x p s.j with
      | some i, some j =>
        if i ≤ j then
          partitionLoop lt n sw p fuel
            { x := swapAt s.x i j, c := sw i j s.c, i := i + 1, j := if j > 0 then j - 1 else j }
        else partitionLoop lt n sw p fuel { s with i := i, j := j }
      | _, _ => none
    else some s

/-- `quicksort(x, companions, left, right)` (MeshingMemoryHandler.cpp:155-188,
190-227, 230-267; MeshingRandomSampler.cpp:263-299; MeshingSmartTree.cpp:3192-3229).
The pivot is `x[(left + right) / 2]`.  `fuel` bounds the recursion depth.
Simplification: `left + right` is computed in `Nat` (no 64-bit wrap). -/
def quicksort {κ C : Type} (lt : κ → κ → Bool) (n : Nat) (sw : Nat → Nat → C → C) :
    Nat → (Nat → κ) → C → Nat → Nat → Option ((Nat → κ) × C)
  | 0, _, _, _, _ => none
  | fuel + 1, x, c, left, right =>
    if (left + right) / 2 < n then
      match partitionLoop lt n sw (x ((left + right) / 2)) (n + 2) { x := x, c := c, i := left, j := right } with
      | none => none
      | some s =>
        let r1 := if s.j > 0 ∧ left < s.j then quicksort lt n sw fuel s.x s.c left s.j else some (s.x, s.c)
        match r1 with
        | none => none
        | some (x1, c1) => if s.i < right then quicksort lt n sw fuel x1 c1 s.i right else some (x1, c1)
    else none

/-- One-array overload (MeshingMemoryHandler.cpp:155-188, MeshingRandomSampler.cpp:263-299). -/
def quicksort1 {κ : Type} (lt : κ → κ → Bool) (n : Nat) (x : Nat → κ) (left right : Nat) :
    Option (Nat → κ) :=
  (quicksort lt n (fun _ _ u => u) (right - left + 1) x () left right).map Prod.fst

/-- Key array with one companion (MeshingMemoryHandler.cpp:190-267). -/
def quicksort2 {κ ι : Type} (lt : κ → κ → Bool) (n : Nat) (x : Nat → κ) (I : Nat → ι)
    (left right : Nat) : Option ((Nat → κ) × (Nat → ι)) :=
  quicksort lt n (fun i j I => swapAt I i j) (right - left + 1) x I left right

/-- Key array with three companions `y1`, `y2`, `I` (MeshingSmartTree.cpp:3192-3229). -/
def quicksort4 {κ α β ι : Type} (lt : κ → κ → Bool) (n : Nat) (x : Nat → κ) (y1 : Nat → α)
    (y2 : Nat → β) (I : Nat → ι) (left right : Nat) :
    Option ((Nat → κ) × ((Nat → α) × (Nat → β) × (Nat → ι))) :=
  quicksort lt n (fun i j c => (swapAt c.1 i j, swapAt c.2.1 i j, swapAt c.2.2 i j))
    (right - left + 1) x (y1, y2, I) left right

end VoroCrust
