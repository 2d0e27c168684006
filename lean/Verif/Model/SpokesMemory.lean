import Verif.Model.TreeMemory

/-!
# Model of the memory of a surrogate

`MeshingVoroSpokes` keeps, for every cell, an array of function values, of orders, of a sample point in adaptive mode, and of coefficients for every function.  As in `TreeMemory` a block is a number, and `none` is the freeing of a block
that is not allocated or a write past the end of an array or to a null array.  The tree of the seeds counts as one block here; its own memory is that of `TreeMemory`.
-/

namespace VoroCrust

/-- `_f[i]`, `_cell_order[i]`, `_cell_samples[i]` and `_cell_coef[i]` with its entries. -/
structure SpokeCell where
  f : Option Nat
  order : Option Nat
  sample : Option Nat
  coef : Option (Nat × List (Option Nat))

/-- A cell whose pointers are null. -/
def emptyCell : SpokeCell := ⟨none, none, none, none⟩

/-- The blocks of a cell. -/
def cellBlocks (c : SpokeCell) : List Nat :=
  c.f.toList ++ c.order.toList ++ c.sample.toList ++
    (match c.coef with
      | none => []
      | some (b, l) => b :: l.reduceOption)

/-- A surrogate: `box` is `_xmin`, `_xmax` and `_seeds`; `arrays` are the arrays over the cells, of which there are six in adaptive mode and three otherwise; `cells` has `_budget` entries; `num` is `_num_seeds`. -/
structure SpokeMem where
  next : Nat
  live : List Nat
  box : List Nat
  arrays : List Nat
  cells : List SpokeCell
  adaptive : Bool
  num : Nat
  samplers : List Nat

/-- The constructor (MeshingVoroSpokes.cpp:40-46). -/
def newSpokes (next : Nat) (live : List Nat) : SpokeMem := ⟨next, live, [], [], [], false, 0, []⟩

/-- `k` new blocks. -/
def freshIds (next k : Nat) : List Nat := (List.range k).map (next + ·)

/-- `init_vorospokes` (MeshingVoroSpokes.cpp:62-99, 1173-1184).  What was there before is overwritten, and `_num_seeds` is not set. -/
def initSpokes (budget threads : Nat) (adaptive : Bool) (S : SpokeMem) : SpokeMem :=
  let k := if adaptive then 6 else 3
  { S with
    next := S.next + (3 + k + threads)
    live := freshIds S.next (3 + k + threads) ++ S.live
    box := freshIds S.next 3
    arrays := freshIds (S.next + 3) k
    cells := List.replicate budget emptyCell
    adaptive := adaptive
    samplers := freshIds (S.next + 3 + k) threads }

/-- The new coefficients: `ks` tells for every function whether the model has an order above zero. -/
def newCoefs : Nat → List Bool → List (Option Nat)
  | _, [] => []
  | next, b :: ks => (if b then some next else none) :: newCoefs (next + 1) ks

/-- `build_vps_model` (MeshingVoroSpokes.cpp:1406-1494, 1496-1522) for cell `i`. -/
def buildCell (i : Nat) (ks : List Bool) (S : SpokeMem) : Option SpokeMem :=
  match S.cells[i]? with
  | none => none
  | some c =>
    let order := c.order.getD S.next
    let newOrder := match c.order with
      | some _ => []
      | none => [S.next]
    let coef := match c.coef with
      | some (b, _) => b
      | none => S.next + 1
    let newCoef := match c.coef with
      | some _ => []
      | none => [S.next + 1]
    let old := match c.coef with
      | some (_, l) => l.reduceOption
      | none => []
    match freeBlocks old S.live with
    | none => none
    | some live =>
      some { S with
        next := S.next + (2 + ks.length)
        live := newOrder ++ newCoef ++ (newCoefs (S.next + 2) ks).reduceOption ++ live
        cells := S.cells.set i { c with order := some order, coef := some (coef, newCoefs (S.next + 2) ks) } }

/-- The models of some cells. -/
def buildCells : List (Nat × List Bool) → SpokeMem → Option SpokeMem
  | [], S => some S
  | (i, ks) :: l, S =>
    match buildCell i ks S with
    | none => none
    | some S' => buildCells l S'

/-- `_f[i] = new double[]`, and in adaptive mode `_cell_samples[i] = new double[]` (MeshingVoroSpokes.cpp:233, 258-261).  What the pointers were before is overwritten. -/
def setValues (i : Nat) (withSample : Bool) (S : SpokeMem) : Option SpokeMem :=
  match S.cells[i]? with
  | none => none
  | some c =>
    some { S with
      next := S.next + 2
      live := (if withSample then [S.next, S.next + 1] else [S.next]) ++ S.live
      cells := S.cells.set i { c with f := some S.next, sample := if withSample then some (S.next + 1) else c.sample } }

/-- `expand_vorospokes_containers` (MeshingVoroSpokes.cpp:1186-1229). -/
def expandSpokes (S : SpokeMem) : Option SpokeMem :=
  match freeBlocks S.arrays (freshIds S.next S.arrays.length ++ S.live) with
  | none => none
  | some live =>
    some { S with
      next := S.next + S.arrays.length
      live := live
      arrays := freshIds S.next S.arrays.length
      cells := S.cells ++ List.replicate S.cells.length emptyCell }

/-- `add_new_seed` (MeshingVoroSpokes.cpp:250-331); `upd` are the cells whose models are built. -/
def addSeedMem (upd : List (Nat × List Bool)) (S : SpokeMem) : Option SpokeMem :=
  match setValues S.num S.adaptive S with
  | none => none
  | some S1 =>
    match buildCells upd S1 with
    | none => none
    | some S2 =>
      let S3 := { S2 with num := S2.num + 1 }
      if S3.num = S3.cells.length then expandSpokes S3 else some S3

/-- The first loop of `add_samples` (MeshingVoroSpokes.cpp:231-236). -/
def sampleValues : List Nat → SpokeMem → Option SpokeMem
  | [], S => some S
  | i :: l, S =>
    match setValues i false S with
    | none => none
    | some S' => sampleValues l S'

/-- `add_samples` (MeshingVoroSpokes.cpp:228-245); `ks` are the flags of the models. -/
def addSamplesMem (m : Nat) (ks : Nat → List Bool) (S : SpokeMem) : Option SpokeMem :=
  match sampleValues (List.range m) S with
  | none => none
  | some S1 =>
    match buildCells ((List.range m).map fun i => (i, ks i)) S1 with
    | none => none
    | some S2 => some { S2 with num := m }

/-- `suggest_new_sample` (MeshingVoroSpokes.cpp:209-225), where cell `i` is selected: with no seeds the point is drawn from the box; else it reads `_cell_samples[i]`, null if the cell has no sample. -/
def suggestMem (i : Nat) (S : SpokeMem) : Option SpokeMem :=
  if S.num = 0 then some S
  else
    match S.cells[i]? with
    | none => none
    | some c => c.sample.map fun _ => S

/-- The blocks that `clear_memory` frees (MeshingVoroSpokes.cpp:101-190). -/
def spokeBlocks (S : SpokeMem) : List Nat := S.box ++ S.arrays ++ S.cells.flatMap cellBlocks ++ S.samplers

/-- `clear_memory` (MeshingVoroSpokes.cpp:101-190).  The pointers to the samplers and the number of seeds are kept. -/
def clearSpokes (S : SpokeMem) : Option SpokeMem :=
  match freeBlocks (spokeBlocks S) S.live with
  | none => none
  | some live => some { S with live := live, box := [], arrays := [], cells := [] }

/-- What a user does. -/
inductive SpokeOp
  | seed (upd : List (Nat × List Bool))
  | samples (m : Nat) (ks : Nat → List Bool)
  | clear

/-- One call. -/
def spokeOp : SpokeOp → SpokeMem → Option SpokeMem
  | .seed upd, S => addSeedMem upd S
  | .samples m ks, S => addSamplesMem m ks S
  | .clear, S => clearSpokes S

/-- A list of calls. -/
def spokeOps : List SpokeOp → SpokeMem → Option SpokeMem
  | [], S => some S
  | o :: os, S =>
    match spokeOp o S with
    | none => none
    | some S' => spokeOps os S'

/-- `init_vorospokes` on a new object, the calls, and the destructor (MeshingVoroSpokes.cpp:48-51): the blocks that are left. -/
def spokeLife (budget threads : Nat) (adaptive : Bool) (os : List SpokeOp) (next : Nat) (live : List Nat) : Option (List Nat) :=
  match spokeOps os (initSpokes budget threads adaptive (newSpokes next live)) with
  | none => none
  | some S => (clearSpokes S).map fun T => T.live

end VoroCrust
