import Verif.Model.Memory

/-!
# Model of the kd-tree: insertion and balanced rebuild

Both copies of the code are covered: the member tree of `MeshingSmartTree` and the free-standing
arrays of `MeshingVoronoiMesher`.  Coordinates are an arbitrary type with an arbitrary comparison, so
every floating point behaviour (ties, NaN, infinities) is included.
-/

namespace VoroCrust

/-- The point store and split rule of a tree: `num` initialised points, `dim` coordinates each.
`lt a b` is the C++ `a < b` on doubles.
Models `_points`, `_num_points`, `_num_dim` (MeshingSmartTree.h) and
`points`, `num_points`, `num_dim` (MeshingVoronoiMesher.cpp:2638). -/
structure PointStore (κ : Type) where
  pts : Nat → Nat → κ
  num : Nat
  dim : Nat
  lt : κ → κ → Bool

/-- `d_index++; if (d_index == _num_dim) d_index = 0;` (MeshingSmartTree.cpp:2088-2089; the queries do
the same at the head of each call, 2104, 2172, 2246, ...). -/
def nextDim (dim d : Nat) : Nat := if d + 1 = dim then 0 else d + 1

/-- Child tables and bookkeeping of a tree.  A node without a left child has `left[i] == i`.
`origin = none` models the sentinel `_tree_origin == _capacity` / `SIZE_MAX` used while rebuilding
(MeshingSmartTree.cpp:613, MeshingVoronoiMesher.cpp:2650). -/
structure Links where
  left : Nat → Nat
  right : Nat → Nat
  origin : Option Nat
  height : Nat

/-- `a[i] = v` on an array given as a function. -/
def upd {α : Type} (a : Nat → α) (i : Nat) (v : α) : Nat → α := fun k => if k = i then v else a k

/-- The walk of `kd_tree_add_point` (MeshingSmartTree.cpp:2052-2094, MeshingVoronoiMesher.cpp
kd_tree_add_point): returns the new left table, right table and `branch_height`.  Every access to
`_points[i][d]`, `_tree_left[i]`, `_tree_right[i]` is bounds checked; `none` = undefined behaviour (or
fuel exhausted: the theorems show that `num` steps always suffice on a well-formed tree). -/
def insertWalk {κ : Type} (P : PointStore κ) (L R : Nat → Nat) (s : Nat) :
    Nat → Nat → Nat → Nat → Option ((Nat → Nat) × (Nat → Nat) × Nat)
  | 0, _, _, _ => none
  | fuel + 1, p, d, h =>
    if s < P.num ∧ p < P.num ∧ d < P.dim then
      if P.lt (P.pts p d) (P.pts s d) then
        if R p = p then some (L, upd R p s, h + 1)
        else insertWalk P L R s fuel (R p) (nextDim P.dim d) (h + 1)
      else
        if L p = p then some (upd L p s, R, h + 1)
        else insertWalk P L R s fuel (L p) (nextDim P.dim d) (h + 1)
    else none

/-- `kd_tree_add_point(seed)` including the height update (MeshingSmartTree.cpp:2056, 2091). -/
def kdAddPoint {κ : Type} (P : PointStore κ) (t : Links) (s : Nat) : Option Links :=
  match t.origin with
  | none => none
  | some o =>
    match insertWalk P t.left t.right s P.num o 0 1 with
    | none => none
    | some (L, R, h) => some { left := L, right := R, origin := some o, height := max t.height h }

/-- `kd_tree_quicksort_adjust_target_position` (MeshingSmartTree.cpp:2016-2050; the copy in
MeshingVoronoiMesher.cpp makes the two recursive calls in the opposite order: `rf = true`).
`T` is `tree_nodes_sorted`, of size `P.num`. -/
def adjustTarget {κ : Type} (P : PointStore κ) (rf : Bool) (target d : Nat) :
    Nat → (Nat → Nat) → Nat → Nat → Option (Nat → Nat)
  | 0, _, _, _ => none
  | fuel + 1, T, left, right =>
    if (left + right) / 2 < P.num ∧ d < P.dim then
      match partitionLoop (fun a b => P.lt (P.pts a d) (P.pts b d)) P.num (fun _ _ (u : Unit) => u)
          (T ((left + right) / 2)) (P.num + 2) { x := T, c := (), i := left, j := right } with
      | none => none
      | some s =>
        let goLeft : (Nat → Nat) → Option (Nat → Nat) := fun T =>
          if s.j > 0 ∧ left < s.j ∧ left ≤ target ∧ target ≤ s.j then adjustTarget P rf target d fuel T left s.j else some T
        let goRight : (Nat → Nat) → Option (Nat → Nat) := fun T =>
          if s.i < right ∧ s.i ≤ target ∧ target ≤ right then adjustTarget P rf target d fuel T s.i right else some T
        if rf then (goRight s.x).bind goLeft else (goLeft s.x).bind goRight
    else none

/-- `if (_tree_origin == _capacity) _tree_origin = s; else kd_tree_add_point(s);`
(MeshingSmartTree.cpp:1999-2000), with the read `tree_nodes_sorted[pos]` bounds checked. -/
def addAt {κ : Type} (P : PointStore κ) (T : Nat → Nat) (pos : Nat) (t : Links) : Option Links :=
  if pos < P.num then
    match t.origin with
    | none => some { t with origin := some (T pos) }
    | some _ => kdAddPoint P t (T pos)
  else none

/-- `kd_tree_add_point(tree_nodes_sorted[pos])` (MeshingSmartTree.cpp:2007, 2010). -/
def addTail {κ : Type} (P : PointStore κ) (T : Nat → Nat) (pos : Nat) (t : Links) : Option Links :=
  if pos < P.num then kdAddPoint P t (T pos) else none

/-- `kd_tree_balance_quicksort` (MeshingSmartTree.cpp:1993-2014; MeshingVoronoiMesher.cpp handles the
right part first: `rf = true`). -/
def balanceQs {κ : Type} (P : PointStore κ) (rf : Bool) :
    Nat → Nat → Nat → Nat → Nat → (Nat → Nat) → Links → Option ((Nat → Nat) × Links)
  | 0, _, _, _, _, _, _ => none
  | fuel + 1, target, left, right, d, T, t =>
    match adjustTarget P rf target d (right - left + 1) T left right with
    | none => none
    | some T =>
      match addAt P T target t with
      | none => none
      | some t =>
        let d := nextDim P.dim d
        let goLeft : (Nat → Nat) × Links → Option ((Nat → Nat) × Links) := fun q =>
          if target > left + 1 then balanceQs P rf fuel ((left + target - 1) / 2) left (target - 1) d q.1 q.2
          else if left < target then (addTail P q.1 left q.2).map (fun t => (q.1, t))
          else some q
        let goRight : (Nat → Nat) × Links → Option ((Nat → Nat) × Links) := fun q =>
          if target + 1 < right then balanceQs P rf fuel ((target + 1 + right) / 2) (target + 1) right d q.1 q.2
          else if right > target then (addTail P q.1 right q.2).map (fun t => (q.1, t))
          else some q
        if rf then (goRight (T, t)).bind goLeft else (goLeft (T, t)).bind goRight

/-- `kd_tree_build_balanced` (MeshingSmartTree.cpp:595-629) / `build_balanced_kd_tree`
(MeshingVoronoiMesher.cpp:2638-2664).  With no points `_num_points - 1` wraps to the largest `size_t`
and the first read of `tree_nodes_sorted` is out of range: `none`. -/
def buildBalanced {κ : Type} (P : PointStore κ) (rf : Bool) : Option Links :=
  if P.num = 0 then none
  else
    (balanceQs P rf P.num (P.num / 2) 0 (P.num - 1) 0 (fun i => i)
      { left := fun i => i, right := fun i => i, origin := none, height := 0 }).map Prod.snd

/-- The state of a `MeshingSmartTree` relevant to its point set.  `cap` is `_capacity`. -/
structure SmartTree (κ : Type) where
  pts : Nat → Nat → κ
  num : Nat
  cap : Nat
  links : Links

/-- `add_tree_point` (MeshingSmartTree.cpp:388-496): storing the coordinates, linking the point,
doubling the capacity, and re-balancing when the policy says so.  `rebalance height num` stands for
`_auto_balance && _tree_max_height > log2(1 + _num_points) * 10` (489); the model allows an arbitrary
policy.  Not modelled: normals, attributes, bounding box. -/
def addTreePoint {κ : Type} (lt : κ → κ → Bool) (dim : Nat) (rebalance : Nat → Nat → Bool)
    (t : SmartTree κ) (x : Nat → κ) : Option (SmartTree κ) :=
  if t.num = 0 then
    some { pts := upd t.pts 0 x, num := 1, cap := 100,
           links := { left := upd t.links.left 0 0, right := upd t.links.right 0 0, origin := some 0, height := 1 } }
  else if t.num < t.cap then
    let pts := upd t.pts t.num x
    let links := { t.links with left := upd t.links.left t.num t.num, right := upd t.links.right t.num t.num }
    let num := t.num + 1
    let P : PointStore κ := { pts := pts, num := num, dim := dim, lt := lt }
    match kdAddPoint P links t.num with
    | none => none
    | some links =>
      let cap := if num = t.cap then t.cap * 2 else t.cap
      if rebalance links.height num then
        (buildBalanced P false).map (fun links => { pts := pts, num := num, cap := cap, links := links })
      else some { pts := pts, num := num, cap := cap, links := links }
  else none

/-- A freshly constructed tree (MeshingSmartTree.cpp:43-84): no points, null arrays.  The child
tables are arbitrary (unallocated); `addTreePoint` never reads them while `num = 0`. -/
def SmartTree.empty {κ : Type} (pts : Nat → Nat → κ) (l r : Nat → Nat) : SmartTree κ :=
  { pts := pts, num := 0, cap := 0, links := { left := l, right := r, origin := none, height := 0 } }

/-- A history of insertions into an initially empty tree. -/
def addTreePoints {κ : Type} (lt : κ → κ → Bool) (dim : Nat) (rebalance : Nat → Nat → Bool) :
    List (Nat → κ) → SmartTree κ → Option (SmartTree κ)
  | [], t => some t
  | x :: xs, t => (addTreePoint lt dim rebalance t x).bind (addTreePoints lt dim rebalance xs)

/-- `set_tree_point_attrib(point_index, attrib_index, double)` (MeshingSmartTree.cpp:529-533): the attributes follow
the coordinates in the point record. -/
def setAttr {κ : Type} (P : PointStore κ) (i k : Nat) (v : κ) : PointStore κ :=
  { P with pts := upd P.pts i (upd (P.pts i) (P.dim + k) v) }

end VoroCrust
