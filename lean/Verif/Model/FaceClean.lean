import Verif.Model.KdTree

/-!
# Model of the removal of degenerate faces (MeshingVoroCrustSampler.cpp:115-174, the same at 569-623)

A face is a pointer; `heap` has what it points to, `none` once deleted.  `deg` is the failure of `get_3d_triangle_normal`.  What the loop does with a face that is not degenerate (its normal, points of the cloud) is one entry
of `normal`.  `none` is undefined behaviour (reading or deleting what is deleted), `some none` that the fuel is used up.
-/

namespace VoroCrust

/-- The state of the loop: `num_faces`, `faces`, the heap and `_face_normal`, with the face that the normal was computed of; `none` is a pointer that was never set or is deleted. -/
structure FaceMem (F : Type) where
  num : Nat
  faces : Nat → Nat
  heap : Nat → Option F
  normal : Nat → Option F

/-- The body of the loop for face `i`, and the new `repeat_index` (MeshingVoroCrustSampler.cpp:124-141). -/
def cleanStep {F : Type} (deg : F → Bool) (S : FaceMem F) (i : Nat) : Option (FaceMem F × Bool) :=
  match S.heap (S.faces i) with
  | none => none
  | some x =>
    if deg x then some (⟨S.num - 1, upd S.faces i (S.faces (S.num - 1)), upd S.heap (S.faces i) none, upd S.normal i none⟩, true)
    else some (⟨S.num, S.faces, S.heap, upd S.normal i (some x)⟩, false)

/-- The loop from `iface` with `repeat_index` (MeshingVoroCrustSampler.cpp:115-174).  The test of the `for` comes before `iface--`. -/
def cleanLoop {F : Type} (deg : F → Bool) : Nat → Nat → Bool → FaceMem F → Option (Option (FaceMem F))
  | 0, _, _, _ => some none
  | f + 1, iface, rep, S =>
    if iface < S.num then
      match cleanStep deg S (if rep then iface - 1 else iface) with
      | none => none
      | some (S', rep') => cleanLoop deg f ((if rep then iface - 1 else iface) + 1) rep' S'
    else some (some S)

/-- `delete[] faces[iface]` for `iface < num_faces` of the caller (MeshingVoroCrust.cpp:229). -/
def releaseFaces {F : Type} (faces : Nat → Nat) (heap : Nat → Option F) : Nat → Option (Nat → Option F)
  | 0 => some heap
  | k + 1 =>
    match releaseFaces faces heap k with
    | none => none
    | some h => if (h (faces k)).isSome then some (upd h (faces k) none) else none

/-- The caller's faces: `n` of them, at the addresses `0..n-1`. -/
def faceMem {F : Type} (xs : List F) : FaceMem F := ⟨xs.length, id, fun a => xs[a]?, fun _ => none⟩

end VoroCrust
