import Verif.Model.Random

/-!
# Model of the adaptive sampling of MeshingVoroSpokes (MeshingVoroSpokes.cpp:61-100, 192-333, 1186-1229)

The arrays `_cell_weight` and `_cell_cdf` in adaptive mode.  They have `budget` entries, and an entry that was not written yet is `none`; reading it, or an access outside of the array, is undefined:
the step returns `none`.  The value that `integrate_vps` finds for a cell and the neighbours that `get_vps_neighbors` finds are inputs.  Of the points only their number is kept.  The threads take their
turn in order (the variant without OpenMP).
-/

namespace VoroCrust

open Classical

/-- `_num_seeds`, `_budget`, `_cell_weight`, `_cell_cdf`. -/
structure AdaptState where
  num : Nat
  budget : Nat
  weight : Nat → Option ℝ
  cdf : Nat → Option ℝ

/-- `init_vorospokes` (MeshingVoroSpokes.cpp:61-100): the entries of the two arrays are not set. -/
def adaptInit (budget : Nat) : AdaptState := ⟨0, budget, fun _ => none, fun _ => none⟩

/-- `integrate_vps(icell, ..., _cell_weight[icell], ...)`: writes one weight. -/
noncomputable def integrateCell (val : Nat → ℝ) (s : AdaptState) (i : Nat) : Option AdaptState :=
  if i < s.budget then some { s with weight := Function.update s.weight i (some (val i)) } else none

/-- `integrate_vps` for the cells of a list. -/
noncomputable def integrateCells (val : Nat → ℝ) : List Nat → AdaptState → Option AdaptState
  | [], s => some s
  | i :: is, s =>
    match integrateCell val s i with
    | none => none
    | some s => integrateCells val is s

/-- The cells whose models are updated by the threads (MeshingVoroSpokes.cpp:283-312): thread `t` takes the positions from `t * k` on, the position after the last neighbour is the new cell. -/
def updatedCells (threads : Nat) (nbrs : List Nat) (new : Nat) : List Nat :=
  (List.range threads).flatMap fun t => (List.range (nbrs.length / threads + 1)).flatMap fun i =>
    let p := t * (nbrs.length / threads + 1) + i
    if p > nbrs.length then [] else if p < nbrs.length then [nbrs.getD p 0] else [new]

/-- `_cell_cdf[0] = _cell_weight[0]; for (i = 1; i < n; i++) _cell_cdf[i] = _cell_cdf[i - 1] + _cell_weight[i]` (MeshingVoroSpokes.cpp:324-325). -/
noncomputable def cdfLoop (w : Nat → Option ℝ) : Nat → (Nat → Option ℝ) → Option (Nat → Option ℝ)
  | 0, c => some c
  | k + 1, c =>
    match cdfLoop w k c with
    | none => none
    | some c =>
      match (if k = 0 then some 0 else c (k - 1)), w k with
      | some a, some b => some (Function.update c k (some (a + b)))
      | _, _ => none

/-- `set_sampling_function` (MeshingVoroSpokes.cpp:192-208): the first `k` cells.  The weight that is added to the table is that at `_num_seeds`. -/
noncomputable def setSampling (val : Nat → ℝ) (s : AdaptState) : Nat → Option AdaptState
  | 0 => some s
  | k + 1 =>
    match setSampling val s k with
    | none => none
    | some s =>
      match integrateCell val s k with
      | none => none
      | some s =>
        if s.num < s.budget then
          match s.weight s.num, (if k = 0 then some 0 else s.cdf (k - 1)) with
          | some w, some a => some { s with cdf := Function.update s.cdf k (some (w + a)) }
          | _, _ => none
        else none

/-- `if (_num_seeds == _budget) expand_vorospokes_containers()` (MeshingVoroSpokes.cpp:329, 1186-1229): the old entries are kept. -/
def adaptGrow (s : AdaptState) : AdaptState := if s.num = s.budget then { s with budget := s.budget * 2 } else s

/-- `add_new_seed` in adaptive mode, with `_sampling_function_index == _num_functions` (MeshingVoroSpokes.cpp:248-332).  Without threads the number of neighbours is divided by zero. -/
noncomputable def addCellSeed (order threads : Nat) (nbrs : List Nat) (val : Nat → ℝ) (s : AdaptState) : Option AdaptState :=
  if s.num < s.budget then
    if s.num = 0 ∨ order = 0 then
      match integrateCell val s s.num with
      | none => none
      | some t => some (adaptGrow { t with cdf := Function.update t.cdf s.num (t.weight s.num), num := s.num + 1 })
    else if threads = 0 then none
    else
      let cells := updatedCells threads nbrs s.num
      match integrateCells val (if s.num ∈ cells then cells else cells ++ [s.num]) s with
      | none => none
      | some t =>
        match cdfLoop t.weight (s.num + 1) t.cdf with
        | none => none
        | some c => some (adaptGrow { t with cdf := c, num := s.num + 1 })
  else none

/-- `add_samples` (MeshingVoroSpokes.cpp:228-247) in adaptive mode: no weights are found and the arrays do not grow. -/
def addSamples (n : Nat) (s : AdaptState) : Option AdaptState := if n ≤ s.budget then some { s with num := n } else none

/-- All entries of the table that can be read are there. -/
def cdfReadable (s : AdaptState) : Prop := ∀ i, i < s.num → (s.cdf i).isSome

/-- `suggest_new_sample` (MeshingVoroSpokes.cpp:209-225): the cell that is selected, if there are cells, with the random number `v`; `val` is what a new integration of that cell finds, if asked for.  The
search may read any entry of the table, so an entry that is not there is taken as undefined behaviour. -/
noncomputable def suggestSample (v : ℝ) (val : Option ℝ) (s : AdaptState) : Option (Option Nat × AdaptState) :=
  if s.num = 0 then some (none, s)
  else if cdfReadable s then
    match discreteCdf (fun i => (s.cdf i).getD 0) s.num v s.num with
    | none => none
    | some i =>
      match val with
      | none => some (some i, s)
      | some w => some (some i, { s with weight := Function.update s.weight i (some w) })
  else none

end VoroCrust
