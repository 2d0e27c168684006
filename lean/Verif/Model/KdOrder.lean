import Verif.Model.KdTree

/-!
# Model of the locality re-enumeration of a kd-tree

`re_enumerate_points_for_better_memory_access` exists twice (MeshingSmartTree.cpp:161-202 and
MeshingVoronoiMesher.cpp:2667-2703) with the same index logic.  Freshly allocated index arrays are
modelled with `none` in every cell: reading such a cell is undefined behaviour.
-/

namespace VoroCrust

/-- `kd_tree_get_nodes_order` (MeshingSmartTree.cpp:204-211, MeshingVoronoiMesher.cpp:3062-3070).  The
state is `num_traversed` and `ordered_indices` (of size `n`). -/
def nodesOrder (n : Nat) (L R : Nat → Nat) : Nat → Nat → Nat × (Nat → Option Nat) → Option (Nat × (Nat → Option Nat))
  | 0, _, _ => none
  | fuel + 1, i, s =>
    if i < n ∧ s.1 < n then
      let s := (s.1 + 1, upd s.2 s.1 (some i))
      (if R i ≠ i then nodesOrder n L R fuel (R i) s else some s).bind fun s =>
        if L i ≠ i then nodesOrder n L R fuel (L i) s else some s
    else none

/-- `for i < k: point_new_index[ordered_indices[i]] = i` (MeshingSmartTree.cpp:168-172). -/
def invertLoop (n : Nat) (ord : Nat → Option Nat) : Nat → Option (Nat → Option Nat)
  | 0 => some (fun _ => none)
  | k + 1 =>
    match invertLoop n ord k, ord k with
    | some nw, some c => if c < n then some (upd nw c (some k)) else none
    | _, _ => none

/-- `for i < k: a[i] = f i` where evaluating `f i` may be undefined. -/
def fillLoop {α : Type} (f : Nat → Option α) (a : Nat → α) : Nat → Option (Nat → α)
  | 0 => some a
  | k + 1 =>
    match fillLoop f a k, f k with
    | some b, some v => some (upd b k v)
    | _, _ => none

/-- Result of the re-enumeration: new points and links, and both index maps. -/
structure ReEnum (κ : Type) where
  store : PointStore κ
  links : Links
  oldIndex : Nat → Option Nat
  newIndex : Nat → Option Nat

/-- `re_enumerate_points_for_better_memory_access` (MeshingSmartTree.cpp:161-202,
MeshingVoronoiMesher.cpp:2667-2703).  Normals and attributes move exactly like the points and are not
listed separately; the mesher's copy moves 3 coordinates of each point (all callers have
`num_dim = 3`). -/
def reEnumerate {κ : Type} (P : PointStore κ) (ln : Links) : Option (ReEnum κ) :=
  match ln.origin with
  | none => none
  | some o =>
    match nodesOrder P.num ln.left ln.right P.num o (0, fun _ => none) with
    | none => none
    | some (_, ord) =>
      match invertLoop P.num ord P.num with
      | none => none
      | some nw =>
        let look : (Nat → Nat) → Nat → Option Nat := fun tbl i => (ord i).bind fun c => if c < P.num ∧ tbl c < P.num then nw (tbl c) else none
        match fillLoop (fun i => (ord i).bind fun c => if c < P.num then some (P.pts c) else none) P.pts P.num,
            fillLoop (look ln.left) ln.left P.num, fillLoop (look ln.right) ln.right P.num, nw o with
        | some pts, some l, some r, some o' =>
          some { store := { P with pts := pts }, links := { left := l, right := r, origin := some o', height := ln.height }, oldIndex := ord, newIndex := nw }
        | _, _, _, _ => none

end VoroCrust
