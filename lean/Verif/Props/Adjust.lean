import Verif.Props.Orient
import Verif.Model.Adjust
import Mathlib.Data.Fin.VecNotation
import Mathlib.Tactic.FinCases

/-! # Properties C66, C67: global orientation and face normals -/

set_option linter.unusedSimpArgs false

namespace VoroCrust

/-- The scan returns the first point of least distance. -/
theorem nearestScan_spec (xc : V3) (ps done : List V3) (s : WithTop ℝ × Option Nat)
    (h : (done = [] ∧ s = (⊤, none)) ∨ ∃ k p, s = (((dist3 p xc : ℝ) : WithTop ℝ), some k) ∧ done[k]? = some p ∧ ∀ q ∈ done, dist3 p xc ≤ dist3 q xc) :
    (done ++ ps = [] ∧ nearestScan xc ps done.length s = (⊤, none)) ∨
      ∃ k p, nearestScan xc ps done.length s = (((dist3 p xc : ℝ) : WithTop ℝ), some k) ∧ (done ++ ps)[k]? = some p ∧ ∀ q ∈ done ++ ps, dist3 p xc ≤ dist3 q xc := by
  induction ps generalizing done s with
  | nil => simpa [nearestScan] using h
  | cons x ps ih =>
    rw [nearestScan]
    have := ih (done ++ [x]) (open Classical in if ((dist3 x xc : ℝ) : WithTop ℝ) < s.1 then (((dist3 x xc : ℝ) : WithTop ℝ), some done.length) else s) (by
      right
      split_ifs with hlt
      · refine ⟨done.length, x, rfl, by simp, ?_⟩
        intro q hq
        rcases List.mem_append.1 hq with hq | hq
        · rcases h with ⟨h1, _⟩ | ⟨k, p, h1, h2, h3⟩
          · subst h1; simp at hq
          · subst h1
            simp only [WithTop.coe_lt_coe] at hlt
            exact le_trans hlt.le (h3 q hq)
        · simp at hq; subst hq; exact le_refl _
      · rcases h with ⟨h1, h2⟩ | ⟨k, p, h1, h2, h3⟩
        · subst h2; exact absurd (WithTop.coe_lt_top _) hlt
        · subst h1
          refine ⟨k, p, rfl, ?_, ?_⟩
          · rw [List.getElem?_append_left (List.getElem?_eq_some_iff.1 h2).1]; exact h2
          · intro q hq
            rcases List.mem_append.1 hq with hq | hq
            · exact h3 q hq
            · simp at hq; subst hq
              simpa using hlt)
    simpa using this

theorem faceEdges_swap23 {f : List Nat} (h : f.length = 3) (a b : Nat) : (a, b) ∈ faceEdges (swap23 f) ↔ (b, a) ∈ faceEdges f := by
  obtain ⟨x, y, z, rfl⟩ := tri_eq h
  simp only [swap23, faceEdges_tri, List.mem_cons, List.not_mem_nil, or_false, Prod.mk.injEq]
  constructor
  · rintro (⟨rfl, rfl⟩ | ⟨rfl, rfl⟩ | ⟨rfl, rfl⟩) <;> simp
  · rintro (⟨rfl, rfl⟩ | ⟨rfl, rfl⟩ | ⟨rfl, rfl⟩) <;> simp

theorem swap23_perm (f : List Nat) : f.Perm (swap23 f) := by
  match f with
  | [] => exact List.Perm.refl _
  | [_] => exact List.Perm.refl _
  | [_, _] => exact List.Perm.refl _
  | a :: b :: c :: r => exact List.Perm.cons a (List.Perm.swap c b r)

theorem map_swap23_perm (F : List (List Nat)) : List.Forall₂ List.Perm F (F.map swap23) := by
  induction F with
  | nil => exact List.Forall₂.nil
  | cons f F ih => exact List.Forall₂.cons (swap23_perm f) ih

/-- Reversing every face keeps a consistent orientation consistent. -/
theorem consistent_reversed {n : Nat} {F : List (List Nat)} (ht : TriMesh n F) (hc : ConsistentlyOriented F) : ConsistentlyOriented (F.map swap23) := by
  intro i j a b hij hi hj hsh h1 h2
  simp only [List.length_map] at hi hj
  have hg : ∀ k, k < F.length → (F.map swap23).getD k [] = swap23 (F.getD k []) := by
    intro k hk; simp [List.getD, List.getElem?_eq_getElem hk]
  rw [hg i hi, faceEdges_swap23 (ht _ (getD_mem hi)).1] at h1
  rw [hg j hj, faceEdges_swap23 (ht _ (getD_mem hj)).1] at h2
  rw [← sharedBy_perm (map_swap23_perm F), sharedBy_comm] at hsh
  exact hc i j b a hij hi hj hsh h1 h2

/-- **C67.** Adjusting the global orientation of a mesh whose points all carry a face: it picks a point nearest to
the far corner and its first face; afterwards that face's stored normal does not point away from the far corner; and
either nothing changed, or every face was reversed and every normal negated, which keeps a consistent orientation
consistent. -/
theorem C67_adjust_orientation (xmin xmax : V3) (points : List V3) (pf : Nat → FaceBuf) (faces : List (List Nat)) (normals : List V3)
    (ht : TriMesh points.length faces) (hb : buildPointFaces points.length faces = some pf) (hn : normals.length = faces.length) (hne : points ≠ [])
    (hused : ∀ p, p < points.length → ∃ f ∈ faces, p ∈ f) :
    ∃ faces' normals' p x k v, adjustCad xmin xmax points pf faces normals = some (faces', normals') ∧
      points[p]? = some x ∧ (∀ q ∈ points, dist3 x (fun d => 2 * xmin d - xmax d) ≤ dist3 q (fun d => 2 * xmin d - xmax d)) ∧
      p ∈ faces.getD k [] ∧ (∀ m, m < k → p ∉ faces.getD m []) ∧ normals'[k]? = some v ∧ 0 ≤ ∑ d, v d * ((2 * xmin d - xmax d) - x d) ∧
      ((faces' = faces ∧ normals' = normals) ∨
        (normals' = normals.map (fun v => -v) ∧ List.Forall₂ (fun f f' => ∀ a b, (a, b) ∈ faceEdges f' ↔ (b, a) ∈ faceEdges f) faces faces')) ∧
      (ConsistentlyOriented faces → ConsistentlyOriented faces') := by
  have hxc : (fun d => xmin d - (xmax d - xmin d)) = (fun d => 2 * xmin d - xmax d) := by funext d; ring
  have hxc' : ∀ d, xmin d - (xmax d - xmin d) = 2 * xmin d - xmax d := by intro d; ring
  rcases nearestScan_spec (fun d => 2 * xmin d - xmax d) points [] (⊤, none) (Or.inl ⟨rfl, rfl⟩) with ⟨h1, _⟩ | ⟨p, x, e, hx, hmin⟩
  · simp at h1; exact absurd h1 hne
  simp only [List.nil_append, List.length_nil] at e hx hmin
  have hpl := (List.getElem?_eq_some_iff.1 hx).1
  obtain ⟨f, hf, hpf⟩ := hused p hpl
  have hpfi : (pf p).items = inc 0 faces p := by
    rw [buildPointFaces_eq _ faces ht] at hb; cases hb; rfl
  have hpos : 0 < (inc 0 faces p).length := by
    rw [inc_length, List.count_pos_iff, List.mem_flatten]; exact ⟨f, hf, hpf⟩
  obtain ⟨k, hk⟩ : ∃ k, (inc 0 faces p)[0]? = some k := ⟨_, List.getElem?_eq_getElem hpos⟩
  have hkm : k ∈ inc 0 faces p := List.mem_of_getElem? hk
  have hkl : k < faces.length := by have := inc_ge 0 faces p k hkm; omega
  have hmem := inc_mem 0 faces p
  simp only [Nat.zero_add] at hmem
  have hfirst : ∀ m, m < k → p ∉ faces.getD m [] := by
    intro m hm hpm
    have hmi := (hmem m).2 hpm
    obtain ⟨q, hq, hqe⟩ := List.getElem_of_mem hmi
    have hs := inc_sorted 0 faces p
    have h0 : (inc 0 faces p)[0] = k := by
      have := List.getElem?_eq_getElem hpos; rw [this] at hk; simpa using hk
    rcases Nat.eq_zero_or_pos q with rfl | hq0
    · rw [h0] at hqe; omega
    · have := List.pairwise_iff_getElem.1 hs 0 q hpos hq hq0
      rw [h0, hqe] at this; omega
  obtain ⟨v, hv⟩ : ∃ v, normals[k]? = some v := ⟨_, List.getElem?_eq_getElem (by rw [hn]; exact hkl)⟩
  have hscan : (nearestScan (fun d => xmin d - (xmax d - xmin d)) points 0 (⊤, none)).2 = some p := by rw [hxc, e]
  by_cases hdot : ∑ d, v d * ((xmin d - (xmax d - xmin d)) - x d) < 0
  · refine ⟨faces.map swap23, normals.map (fun v => -v), p, x, k, -v, ?_, hx, hmin, (hmem k).1 hkm, hfirst, ?_, ?_, Or.inr ⟨rfl, ?_⟩,
      consistent_reversed ht⟩
    · rw [adjustCad, hscan]; simp only [hpfi, hk, hx, hv]; rw [if_pos hdot]
    · simp [hv]
    · simp only [hxc'] at hdot
      simp only [Pi.neg_apply, neg_mul, Finset.sum_neg_distrib]; linarith
    · refine forall₂_of_getD (by simp) (fun q hq a b => ?_)
      have : (faces.map swap23).getD q [] = swap23 (faces.getD q []) := by simp [List.getD, List.getElem?_eq_getElem hq]
      rw [this]
      exact faceEdges_swap23 (ht _ (getD_mem hq)).1 a b
  · refine ⟨faces, normals, p, x, k, v, ?_, hx, hmin, (hmem k).1 hkm, hfirst, hv, ?_, Or.inl ⟨rfl, rfl⟩, id⟩
    · rw [adjustCad, hscan]; simp only [hpfi, hk, hx, hv]; rw [if_neg hdot]
    · simp only [hxc'] at hdot; linarith

/-- Without points the index of the nearest point is uninitialised. -/
theorem C67_no_points_undefined (xmin xmax : V3) (pf : Nat → FaceBuf) (faces : List (List Nat)) (normals : List V3) :
    adjustCad xmin xmax [] pf faces normals = none := by
  simp [adjustCad, nearestScan]

/-- **C66 (partial).** If the input is consistently oriented, every stored normal is the normal of the stored corner
order, for any normal function that is negated when two corners are exchanged.
Missing from C66: inputs in which a face gets reversed (`C66_stale_normal_false`). -/
theorem C66_normals_partial (N : List Nat → V3) (hN : ∀ a b c, N [a, c, b] = -N [a, b, c]) (g : Bool) (xmin xmax : V3) (points : List V3)
    (faces : List (List Nat)) (pf : Nat → FaceBuf) (ht : TriMesh points.length faces) (hs : SimpleFaces faces)
    (hb : buildPointFaces points.length faces = some pf) (hne : points ≠ []) (hused : ∀ p, p < points.length → ∃ f ∈ faces, p ∈ f)
    (hc : ConsistentlyOriented faces) :
    ∃ faces' normals', orientAndNormals N g xmin xmax points pf faces = some (faces', normals') ∧ normals' = faces'.map N := by
  obtain ⟨s, e, hF⟩ := C23_consistent_unchanged points.length faces ht hs hc pf hb g
  obtain ⟨f', n', _, _, _, _, ea, _, _, _, _, _, _, hor, _⟩ :=
    C67_adjust_orientation xmin xmax points pf faces (faces.map N) ht hb (by simp) hne hused
  refine ⟨f', n', by rw [orientAndNormals, e]; simp only [hF]; exact ea, ?_⟩
  -- the two outcomes of the adjustment
  rw [adjustCad] at ea
  split at ea
  · simp at ea
  · split at ea
    · split at ea
      · simp at ea
      · split_ifs at ea with hdot
        · simp only [Option.some.injEq, Prod.mk.injEq] at ea
          rw [← ea.1, ← ea.2, List.map_map, List.map_map]
          apply List.map_congr_left
          intro f hf
          obtain ⟨a, b, c, rfl⟩ := tri_eq (ht f hf).1
          exact (hN a b c).symm
        · simp only [Option.some.injEq, Prod.mk.injEq] at ea
          rw [← ea.1, ← ea.2]
    · simp at ea

/-- **C66 is false of the code**: two triangles sharing the edge `(1,2)` in the same direction.  The second face is
reversed, but its stored normal is still the one of the input order (the whole mesh being possibly reversed once
more), so it is the negative of the normal of the stored corner order. -/
theorem C66_stale_normal_false (N : List Nat → V3) (hN : ∀ a b c, N [a, c, b] = -N [a, b, c] ∧ N [b, a, c] = -N [a, b, c]) (h0 : N [1, 2, 3] ≠ 0)
    (xmin xmax : V3) (points : List V3) (hp : points.length = 4) (pf : Nat → FaceBuf)
    (hb : buildPointFaces 4 [[0, 1, 2], [1, 2, 3]] = some pf) (faces' : List (List Nat)) (normals' : List V3)
    (e : orientAndNormals N false xmin xmax points pf [[0, 1, 2], [1, 2, 3]] = some (faces', normals')) :
    normals'.getD 1 0 = -N (faces'.getD 1 []) ∧ normals'.getD 1 0 ≠ N (faces'.getD 1 []) := by
  have ho : ∃ s, orient 4 pf false [[0, 1, 2], [1, 2, 3]] = some s ∧ s.faces = [[0, 1, 2], [2, 1, 3]] := by
    have : (buildPointFaces 4 [[0, 1, 2], [1, 2, 3]]).bind (fun pf => (orient 4 pf false [[0, 1, 2], [1, 2, 3]]).map (·.faces)) =
        some [[0, 1, 2], [2, 1, 3]] := by decide +kernel
    rw [hb] at this
    simpa [Option.bind_some, Option.map_eq_some_iff] using this
  obtain ⟨s, es, hF⟩ := ho
  rw [orientAndNormals, hp, es] at e
  simp only [hF] at e
  have key : normals'.getD 1 0 = -N (faces'.getD 1 []) ∧ N (faces'.getD 1 []) ≠ 0 := by
    rw [adjustCad] at e
    split at e
    · simp at e
    · split at e
      · split at e
        · simp at e
        · split_ifs at e with hdot
          · simp only [Option.some.injEq, Prod.mk.injEq] at e
            rw [← e.1, ← e.2]
            simp only [List.map_cons, List.map_nil, swap23, List.getD_cons_succ, List.getD_cons_zero]
            rw [(hN 2 1 3).1, (hN 1 2 3).2]
            simpa using h0
          · simp only [Option.some.injEq, Prod.mk.injEq] at e
            rw [← e.1, ← e.2]
            simp only [List.map_cons, List.map_nil, List.getD_cons_succ, List.getD_cons_zero]
            rw [(hN 1 2 3).2]
            simpa using h0
      · simp at e
  refine ⟨key.1, fun h => key.2 ?_⟩
  rw [key.1] at h
  funext d
  have := congrFun h d
  simp only [Pi.neg_apply, Pi.zero_apply] at this ⊢
  linarith

/-- The un-normalised normal `(b - a) × (c - a)` of a corner list. -/
noncomputable def crossNormal (pts : Nat → V3) : List Nat → V3
  | [a, b, c] => ![(pts b 1 - pts a 1) * (pts c 2 - pts a 2) - (pts b 2 - pts a 2) * (pts c 1 - pts a 1),
      (pts b 2 - pts a 2) * (pts c 0 - pts a 0) - (pts b 0 - pts a 0) * (pts c 2 - pts a 2),
      (pts b 0 - pts a 0) * (pts c 1 - pts a 1) - (pts b 1 - pts a 1) * (pts c 0 - pts a 0)]
  | _ => 0

/-- Four corners of the unit square in the plane `z = 0`. -/
noncomputable def squarePts : Nat → V3
  | 0 => ![0, 0, 0]
  | 1 => ![1, 0, 0]
  | 2 => ![0, 1, 0]
  | _ => ![1, 1, 0]

-- the hypotheses of the two C66 theorems are met by the cross product, and the witness run is defined
example (xmin xmax : V3) : (∀ a b c, crossNormal squarePts [a, c, b] = -crossNormal squarePts [a, b, c] ∧
      crossNormal squarePts [b, a, c] = -crossNormal squarePts [a, b, c]) ∧ crossNormal squarePts [1, 2, 3] ≠ 0 ∧
    ∃ pf r, buildPointFaces 4 [[0, 1, 2], [1, 2, 3]] = some pf ∧
      orientAndNormals (crossNormal squarePts) false xmin xmax [squarePts 0, squarePts 1, squarePts 2, squarePts 3] pf [[0, 1, 2], [1, 2, 3]] = some r := by
  refine ⟨fun a b c => ⟨?_, ?_⟩, ?_, ?_⟩
  · funext d; fin_cases d <;> simp [crossNormal] <;> ring
  · funext d; fin_cases d <;> simp [crossNormal] <;> ring
  · intro h
    have := congrFun h 2
    simp [crossNormal, squarePts] at this
  · have hb := buildPointFaces_eq 4 [[0, 1, 2], [1, 2, 3]] (by unfold TriMesh; decide)
    obtain ⟨s, es, hF⟩ : ∃ s, orient 4 (fun p => { cap := ([[0, 1, 2], [1, 2, 3]] : List (List Nat)).flatten.count p, items := inc 0 [[0, 1, 2], [1, 2, 3]] p }) false [[0, 1, 2], [1, 2, 3]] = some s ∧ s.faces = [[0, 1, 2], [2, 1, 3]] := by
      have : (buildPointFaces 4 [[0, 1, 2], [1, 2, 3]]).bind (fun pf => (orient 4 pf false [[0, 1, 2], [1, 2, 3]]).map (·.faces)) =
          some [[0, 1, 2], [2, 1, 3]] := by decide +kernel
      rw [hb] at this
      simpa [Option.bind_some, Option.map_eq_some_iff] using this
    obtain ⟨f', n', _, _, _, _, ea, _⟩ := C67_adjust_orientation xmin xmax [squarePts 0, squarePts 1, squarePts 2, squarePts 3]
      (fun p => { cap := ([[0, 1, 2], [1, 2, 3]] : List (List Nat)).flatten.count p, items := inc 0 [[0, 1, 2], [1, 2, 3]] p }) [[0, 1, 2], [2, 1, 3]]
      ([[0, 1, 2], [1, 2, 3]].map (crossNormal squarePts)) (by unfold TriMesh; simp)
      (by
        rw [← hb]
        exact buildPointFaces_perm (F := [[0, 1, 2], [1, 2, 3]]) (by
          refine List.Forall₂.cons (List.Perm.refl _) (List.Forall₂.cons (List.Perm.swap 2 1 [3]) List.Forall₂.nil)) (by unfold TriMesh; decide))
      (by simp) (by simp)
      (by
        intro p hp
        simp only [List.length_cons, List.length_nil] at hp
        have : p = 0 ∨ p = 1 ∨ p = 2 ∨ p = 3 := by omega
        rcases this with rfl | rfl | rfl | rfl <;> simp)
    refine ⟨_, (f', n'), hb, ?_⟩
    rw [orientAndNormals]
    simp only [List.length_cons, List.length_nil, Nat.zero_add, Nat.reduceAdd, es, hF]
    exact ea

end VoroCrust
