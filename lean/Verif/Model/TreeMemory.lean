import Mathlib.Data.List.Basic
import Mathlib.Data.List.Count

/-!
# Model of the memory of a tree (`MeshingSmartTree`: constructors 43-84, destructor 87-90, `init_random_samplers` 106-116, `add_tree_point` 388-496, `clear_memory` 535-593)

A block of memory is a number; `live` lists those that are allocated.  The values in the blocks are modelled in `KdTree` and `TreeFile`; here only which blocks there are.  The array of marks and the graph, which only other functions
allocate, are left out, and the balancing of the tree allocates one block and frees it again.  `none` is undefined behaviour: a block freed that is not allocated, a null array or a place past the end of an array written.
-/

namespace VoroCrust

/-- The pointers of a tree, the blocks of its points, normals and attributes, and its samplers. -/
structure TreeMem where
  next : Nat
  live : List Nat
  xmin : Option Nat
  xmax : Option Nat
  left : Option Nat
  right : Option Nat
  points : Option Nat
  normal : Option Nat
  attrib : Option Nat
  pts : List Nat
  normals : List Nat
  attrs : List Nat
  samplers : List Nat
  num : Nat
  cap : Nat

/-- `delete` for a list of blocks. -/
def freeBlocks : List Nat → List Nat → Option (List Nat)
  | [], live => some live
  | b :: bs, live => if b ∈ live then freeBlocks bs (live.erase b) else none

/-- The constructors without points (MeshingSmartTree.cpp:43-61). -/
def newTree (next : Nat) (live : List Nat) : TreeMem where
  next := next + 2
  live := [next, next + 1] ++ live
  xmin := some next
  xmax := some (next + 1)
  left := none
  right := none
  points := none
  normal := none
  attrib := none
  pts := []
  normals := []
  attrs := []
  samplers := []
  num := 0
  cap := 0

/-- The constructor with points (MeshingSmartTree.cpp:63-84): the array `p` and the points `ps` in it were allocated by the caller; the tree is built at once, which allocates the arrays of its links (603-604). -/
def newTreeFrom (next : Nat) (live : List Nat) (p : Nat) (ps : List Nat) : TreeMem where
  next := next + 4
  live := [next, next + 1, next + 2, next + 3] ++ live
  xmin := some next
  xmax := some (next + 1)
  left := some (next + 2)
  right := some (next + 3)
  points := some p
  normal := none
  attrib := none
  pts := ps
  normals := []
  attrs := []
  samplers := []
  num := ps.length
  cap := ps.length

/-- `init_random_samplers` (MeshingSmartTree.cpp:106-116). -/
def initSamplers (k : Nat) (S : TreeMem) : TreeMem :=
  { S with next := S.next + k, live := (List.range k).map (S.next + ·) ++ S.live, samplers := (List.range k).map (S.next + ·) }

/-- `_xmin` and `_xmax` where they are null (MeshingSmartTree.cpp:392-402). -/
def allocBox (S : TreeMem) : TreeMem :=
  let S := match S.xmin with
    | some _ => S
    | none => { S with next := S.next + 1, live := S.next :: S.live, xmin := some S.next }
  match S.xmax with
    | some _ => S
    | none => { S with next := S.next + 1, live := S.next :: S.live, xmax := some S.next }

/-- The first point (MeshingSmartTree.cpp:410-437); `a` tells whether there are attributes. -/
def firstPoint (a : Bool) (S : TreeMem) : TreeMem :=
  { S with
    next := S.next + 8
    live := [S.next, S.next + 1, S.next + 2, S.next + 3, S.next + 4] ++ (if a then [S.next + 5] else []) ++ [S.next + 6, S.next + 7] ++ S.live
    points := some S.next
    normal := some (S.next + 1)
    pts := [S.next + 2]
    normals := [S.next + 3]
    attrib := some (S.next + 4)
    attrs := if a then [S.next + 5] else []
    left := some (S.next + 6)
    right := some (S.next + 7)
    num := 1
    cap := 100 }

/-- The arrays are enlarged where they are full (MeshingSmartTree.cpp:467-490). -/
def growArrays (S : TreeMem) : Option TreeMem :=
  if S.num = S.cap then
    match freeBlocks (S.points.toList ++ S.normal.toList ++ S.attrib.toList ++ S.left.toList ++ S.right.toList) ([S.next, S.next + 1, S.next + 2, S.next + 3, S.next + 4] ++ S.live) with
    | none => none
    | some live =>
      some { S with
        next := S.next + 5
        live := live
        points := some S.next
        normal := some (S.next + 1)
        attrib := some (S.next + 2)
        left := some (S.next + 3)
        right := some (S.next + 4)
        cap := S.cap * 2 }
  else some S

/-- A further point (MeshingSmartTree.cpp:438-466): the five arrays are written at place `_num_points`. -/
def furtherPoint (a : Bool) (S : TreeMem) : Option TreeMem :=
  if S.points.isSome ∧ S.normal.isSome ∧ S.attrib.isSome ∧ S.left.isSome ∧ S.right.isSome ∧ S.num < S.cap then
    growArrays { S with
      next := S.next + 3
      live := [S.next, S.next + 1] ++ (if a then [S.next + 2] else []) ++ S.live
      pts := S.pts ++ [S.next]
      normals := S.normals ++ [S.next + 1]
      attrs := S.attrs ++ (if a then [S.next + 2] else [])
      num := S.num + 1 }
  else none

/-- `add_tree_point` (MeshingSmartTree.cpp:388-496). -/
def addPointMem (a : Bool) (S : TreeMem) : Option TreeMem :=
  if S.num = 0 then some (firstPoint a (allocBox S)) else furtherPoint a (allocBox S)

/-- The blocks that `clear_memory` frees, in its order (MeshingSmartTree.cpp:538-588). -/
def ownedBlocks (S : TreeMem) : List Nat :=
  S.left.toList ++ S.right.toList ++ (S.attrs ++ S.attrib.toList) ++ (S.pts ++ S.points.toList) ++ (S.normals ++ S.normal.toList) ++ S.xmin.toList ++ S.xmax.toList ++ S.samplers

/-- `clear_memory` (MeshingSmartTree.cpp:535-593).  The samplers are deleted, and the pointers to them are kept. -/
def clearTree (S : TreeMem) : Option TreeMem :=
  match freeBlocks (ownedBlocks S) S.live with
  | none => none
  | some live =>
    some { S with live := live, left := none, right := none, attrib := none, points := none, normal := none, xmin := none, xmax := none, pts := [], normals := [], attrs := [], num := 0, cap := 0 }

/-- What a user of a tree does. -/
inductive TreeOp
  | add (a : Bool)
  | clear
  | samplers (k : Nat)

/-- One call. -/
def treeOp : TreeOp → TreeMem → Option TreeMem
  | .add a, S => addPointMem a S
  | .clear, S => clearTree S
  | .samplers k, S => some (initSamplers k S)

/-- A list of calls. -/
def treeOps : List TreeOp → TreeMem → Option TreeMem
  | [], S => some S
  | o :: os, S =>
    match treeOp o S with
    | none => none
    | some S' => treeOps os S'

/-- The calls and the destructor (MeshingSmartTree.cpp:87-90): the blocks that are left. -/
def treeLife (os : List TreeOp) (S : TreeMem) : Option (List Nat) :=
  match treeOps os S with
  | none => none
  | some S' => (clearTree S').map fun T => T.live

end VoroCrust
