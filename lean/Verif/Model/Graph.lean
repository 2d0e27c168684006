import Verif.Model.KdTree

/-! # Model of the point connectivity graph of `MeshingSmartTree` -/

namespace VoroCrust

/-- One neighbour list `_graph[i]`: an allocation of `cap + 2` words, word 0 = `cap`, word 1 = `num`, then
the neighbours (MeshingSmartTree.cpp:341-345). -/
structure EdgeList where
  cells : Nat → Nat
  num : Nat
  cap : Nat

/-- `_graph` (`none` = null pointer) and `_graph_cap` (MeshingSmartTree.h:298-299). -/
structure Graph where
  rows : Option (Nat → Option EdgeList)
  cap : Nat

/-- The scan of `graph_connected` over the first `k` entries of a list. -/
def EdgeList.scan (e : EdgeList) (j : Nat) : Nat → Bool
  | 0 => false
  | k + 1 => e.scan j k || (e.cells k == j)

/-- `graph_connected` (MeshingSmartTree.cpp:371-386).  `none`: the scan leaves the allocation. -/
def graphConnected (g : Graph) (i j : Nat) : Option Bool :=
  match g.rows with
  | none => some false
  | some rows =>
    if g.cap ≤ i then some false
    else
      match rows i with
      | none => some false
      | some e => if e.num ≤ e.cap then some (e.scan j e.num) else none

/-- Allocation or enlargement of the table of lists (MeshingSmartTree.cpp:329-344). -/
def Graph.enlarge (tcap : Nat) (g : Graph) : Graph :=
  match g.rows with
  | none => { rows := some (fun _ => none), cap := tcap }
  | some rows => if g.cap < tcap then { rows := some (fun k => if k < g.cap then rows k else none), cap := tcap } else g

/-- Allocation of the list of point `i` if there is none (MeshingSmartTree.cpp:346-350). -/
def ensureRow (rows : Nat → Option EdgeList) (i : Nat) : Nat → Option EdgeList :=
  match rows i with
  | none => upd rows i (some { cells := fun _ => 0, num := 0, cap := 10 })
  | some _ => rows

/-- `graph_connect` (MeshingSmartTree.cpp:323-369).  `n` is `_num_points`, `tcap` is `_capacity`.
Returns the status code and the graph; `none` is an out-of-bounds access. -/
def graphConnect (n tcap : Nat) (g : Graph) (i j : Nat) : Option (Nat × Graph) :=
  if n ≤ i then some (1, g)
  else
    let g := g.enlarge tcap
    match g.rows with
    | none => none
    | some rows =>
      if i < g.cap then
        let rows := ensureRow rows i
        let g : Graph := { g with rows := some rows }
        match graphConnected g i j with
        | none => none
        | some true => some (1, g)
        | some false =>
          match rows i with
          | none => none
          | some e =>
            if e.num < e.cap then
              let e : EdgeList := { e with cells := upd e.cells e.num j, num := e.num + 1 }
              let e : EdgeList := if e.num = e.cap then { e with cap := 2 * e.cap } else e
              some (0, { g with rows := some (upd rows i (some e)) })
            else none
      else none

/-- `graph_connect_nodes` (MeshingSmartTree.cpp:316-321). -/
def graphConnectNodes (n tcap : Nat) (g : Graph) (i j : Nat) : Option Graph :=
  match graphConnect n tcap g i j with
  | none => none
  | some (_, g) => (graphConnect n tcap g j i).map Prod.snd

/-- `reset_graph` (MeshingSmartTree.cpp:296-314). -/
def graphReset (n : Nat) (g : Graph) : Graph := if n = 0 then g else { g with rows := none }

/-- `graph_get_neighbors` (MeshingSmartTree.h:75): the raw pointer `_graph[i]`; `none` = undefined
behaviour, `some none` = null pointer (no list yet). -/
def graphNeighbors (g : Graph) (i : Nat) : Option (Option (List Nat)) :=
  match g.rows with
  | none => none
  | some rows => if i < g.cap then some ((rows i).map fun e => (List.range e.num).map e.cells) else none

/-- Operations on a tree that concern the graph: points are added (the point count and capacity grow),
nodes are connected in one or both directions, the graph is reset. -/
inductive GraphOp
  | grow (points capacity : Nat)
  | connect (i j : Nat)
  | connectOneWay (i j : Nat)
  | reset

/-- Run a history.  State: `_num_points`, `_capacity`, graph. -/
def runGraph : List GraphOp → Nat × Nat × Graph → Option (Nat × Nat × Graph)
  | [], s => some s
  | .grow n c :: ops, (_, _, g) => runGraph ops (n, c, g)
  | .connect i j :: ops, (n, c, g) =>
    match graphConnectNodes n c g i j with
    | none => none
    | some g => runGraph ops (n, c, g)
  | .connectOneWay i j :: ops, (n, c, g) =>
    match graphConnect n c g i j with
    | none => none
    | some (_, g) => runGraph ops (n, c, g)
  | .reset :: ops, (n, c, g) => runGraph ops (n, c, graphReset n g)

end VoroCrust
