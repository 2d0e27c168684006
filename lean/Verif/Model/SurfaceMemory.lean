import Verif.Model.PoolMemory

/-!
# Model of the memory of the input surface

The points and the faces of the input are arrays of pointers, and every point and every face is an array of its own.  They are allocated by `read_input_obj_file`, moved by the merging of several files, replaced by
`weld_nearby_points`, and freed at the end of `MeshingVoroCrust::execute`.  As in `TreeMemory` a block is a number, and `none` is the freeing of a block that is not allocated, a read of a face that is not allocated, a read of
a pointer past the end of an array, or the read of a file name that is not there.  The texts are left out: a file is the number of its points and faces, and what the welding makes of them.  The tree of the welding is left out (see
`TreeMemory`).  Between the reading and the end the surface is only read, except that the feature detection with a minimum radius removes degenerate faces (see `FaceClean`), of which one is modelled here.
-/

namespace VoroCrust

/-- A surface: the array `points` with the blocks in it, and the array `faces` with the blocks in it, of which the first `numFaces` count. -/
structure SurfMem where
  points : Nat
  pointBlocks : List Nat
  faces : Nat
  slots : List Nat
  numFaces : Nat

/-- A welding: how many points are left, and which faces are degenerate after it. -/
structure WeldPlan where
  kept : Nat
  degenerate : Nat → Bool

/-- A file: the number of lines with a point and with a face, and the welding. -/
structure ObjPlan where
  numPoints : Nat
  numFaces : Nat
  weld : WeldPlan

/-- The removal of degenerate faces (MeshingPolyMesh.cpp:417-443), from face `i` with `k` more: a degenerate face is freed and the last one takes its place.  The result is `num_faces`, the array and the heap. -/
def dropFaces (degenerate : Nat → Bool) : Nat → Nat → List Nat → List Nat → Option (Nat × List Nat × List Nat)
  | 0, i, slots, live => some (i, slots, live)
  | k + 1, i, slots, live =>
    match slots[i]? with
    | none => none
    | some b =>
      if b ∈ live then
        if degenerate b then
          match slots[i + k]? with
          | none => none
          | some c => dropFaces degenerate k i (slots.set i c) (live.erase b)
        else dropFaces degenerate k (i + 1) slots live
      else none

/-- `weld_nearby_points` (MeshingPolyMesh.cpp:362-501): block `h.next` is `point_map`, and the next one `new_points`. -/
def weldMem (w : WeldPlan) (S : SurfMem) (h : Heap) : Option (Heap × SurfMem) :=
  if w.kept = S.pointBlocks.length then
    match freeBlocks [h.next] (h.next :: h.live) with
    | none => none
    | some live => some (⟨h.next + 1, live⟩, S)
  else
    match dropFaces w.degenerate S.numFaces 0 S.slots (freshIds h.next (2 + w.kept) ++ h.live) with
    | none => none
    | some (num, slots, live) =>
      match freeBlocks (S.pointBlocks ++ [S.points, h.next]) live with
      | none => none
      | some live => some (⟨h.next + (2 + w.kept), live⟩, ⟨h.next + 1, freshIds (h.next + 2) w.kept, S.faces, slots, num⟩)

/-- `read_input_obj_file` (MeshingPolyMesh.cpp:190-334): the two arrays, the points and the faces, and the welding. -/
def readMem (f : ObjPlan) (h : Heap) : Option (Heap × SurfMem) :=
  weldMem f.weld ⟨h.next, freshIds (h.next + 2) f.numPoints, h.next + 1, freshIds (h.next + 2 + f.numPoints) f.numFaces, f.numFaces⟩
    ⟨h.next + (2 + f.numPoints + f.numFaces), freshIds h.next (2 + f.numPoints + f.numFaces) ++ h.live⟩

/-- One round of the merging (MeshingVoroCrust.cpp:179-207); `A` is the surface so far, and null in the first round. -/
def mergeMem (A : Option SurfMem) (f : ObjPlan) (h : Heap) : Option (Heap × SurfMem) :=
  match readMem f h with
  | none => none
  | some (h, T) =>
    match freeBlocks ([T.points, T.faces] ++ (match A with | none => [] | some A => [A.points, A.faces])) (freshIds h.next 2 ++ h.live) with
    | none => none
    | some live =>
      let old := match A with
        | none => (([], []) : List Nat × List Nat)
        | some A => (A.pointBlocks, A.slots.take A.numFaces)
      some (⟨h.next + 2, live⟩, ⟨h.next, old.1 ++ T.pointBlocks, h.next + 1, old.2 ++ T.slots.take T.numFaces, old.2.length + T.numFaces⟩)

/-- All rounds of the merging (MeshingVoroCrust.cpp:179-207). -/
def mergeAll : List ObjPlan → Option SurfMem → Heap → Option (Heap × Option SurfMem)
  | [], A, h => some (h, A)
  | f :: fs, A, h =>
    match mergeMem A f h with
    | none => none
    | some (h, B) => mergeAll fs (some B) h

/-- The reading of all files (MeshingVoroCrust.cpp:174-216); `w` is the welding of the merged surface. -/
def readAllMem (files : List ObjPlan) (w : WeldPlan) (h : Heap) : Option (Heap × SurfMem) :=
  if files.length > 1 then
    match mergeAll files none h with
    | none => none
    | some (_, none) => none
    | some (h, some S) => weldMem w S h
  else
    match files with
    | [] => none
    | f :: _ => readMem f h

/-- The end of `execute` (MeshingVoroCrust.cpp:226-230). -/
def freeSurface (S : SurfMem) (h : Heap) : Option Heap :=
  match freeBlocks (S.pointBlocks ++ [S.points] ++ (S.slots.take S.numFaces ++ [S.faces])) h.live with
  | none => none
  | some live => some ⟨h.next, live⟩

/-- The removal of a degenerate face in `detect_features_generate_point_clouds` (MeshingVoroCrustSampler.cpp:590-593): the face is freed and the last one takes its place, but `num_faces` is a copy, so the number of the caller stays. -/
def removeFaceMem (i : Nat) (S : SurfMem) (h : Heap) : Option (Heap × SurfMem) :=
  match S.slots[i]?, S.slots[S.numFaces - 1]? with
  | some b, some c =>
    match freeBlocks [b] h.live with
    | none => none
    | some live => some (⟨h.next, live⟩, { S with slots := S.slots.set i c })
  | _, _ => none

/-- `execute` (MeshingVoroCrust.cpp:173-234), as far as the surface goes; `removed` is the face that the feature detection removes, if there is one. -/
def surfaceLife (files : List ObjPlan) (w : WeldPlan) (removed : Option Nat) (h : Heap) : Option Heap :=
  match readAllMem files w h with
  | none => none
  | some (h, S) =>
    match removed with
    | none => freeSurface S h
    | some i =>
      match removeFaceMem i S h with
      | none => none
      | some (h, S) => freeSurface S h

end VoroCrust
