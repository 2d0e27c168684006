import Verif.Lemmas.Mesh
import Mathlib.Tactic.NormNum
import Mathlib.Tactic.Linarith
import Mathlib.Tactic.Positivity

/-! # Properties C18-C22: connectivity of triangle meshes -/

set_option linter.unusedSimpArgs false

namespace VoroCrust

/-! ## C19 -/

/-- **C19.** On a triangle mesh with valid corner indices both passes run without out-of-range access,
and the list of each point is filled exactly, is ascending, and contains face `k` as often as the point is a
corner of face `k`. -/
theorem C19_point_faces_transpose (n : Nat) (faces : List (List Nat)) (h : TriMesh n faces) :
    ∃ pf, buildPointFaces n faces = some pf ∧ ∀ p, (pf p).items.length = (pf p).cap ∧ (pf p).items.Pairwise (· ≤ ·) ∧
      ∀ k, (pf p).items.count k = (faces.getD k []).count p := by
  refine ⟨_, buildPointFaces_eq n faces h, fun p => ⟨inc_length 0 faces p, inc_sorted 0 faces p, fun k => ?_⟩⟩
  have := inc_count 0 faces p k
  simpa using this

/-- A corner index that is no point is undefined behaviour. -/
theorem C19_invalid_corner_undefined (n : Nat) (faces : List (List Nat)) (h : ∃ f ∈ faces, f.length = 3 ∧ ∃ c ∈ f, ¬ c < n) :
    buildPointFaces n faces = none := by
  rw [buildPointFaces, countFaces_none n faces _ h]

example : TriMesh 4 [[0, 1, 2], [2, 1, 3]] := by unfold TriMesh; decide
example : (buildPointFaces 4 [[0, 1, 2], [2, 1, 3]]).map (fun pf => (pf 1).items) = some [0, 1] := by decide

/-! ## C20 -/

/-- **C20.** On a triangle mesh without repeated corners, for distinct points: the reported number of
faces of an edge is the number of faces having both ends as corners; the returned list names exactly those faces
in ascending order and fills the buffer completely. -/
theorem C20_edge_faces (n : Nat) (faces : List (List Nat)) (h : TriMesh n faces) (hs : SimpleFaces faces) (pf : Nat → FaceBuf)
    (hb : buildPointFaces n faces = some pf) (i j : Nat) (hi : i < n) (hij : i ≠ j) :
    ∃ b, numEdgeFaces n faces pf i j = some (faces.countP (fun f => decide (i ∈ f) && decide (j ∈ f))) ∧
      edgeFaces n faces pf i j = some b ∧ b.items.length = b.cap ∧
      b.cap = faces.countP (fun f => decide (i ∈ f) && decide (j ∈ f)) ∧ b.items.Pairwise (· < ·) ∧
      ∀ k, k ∈ b.items ↔ ∃ f, faces[k]? = some f ∧ i ∈ f ∧ j ∈ f := by
  refine ⟨_, numEdgeFaces_simple h hs hb hi hij, edgeFaces_simple h hs hb hi hij, facesWith_length faces i j, rfl,
    List.Pairwise.filter _ (List.pairwise_lt_range), fun k => ?_⟩
  simp only [facesWith, List.mem_filter, List.mem_range, Bool.and_eq_true, decide_eq_true_eq]
  constructor
  · rintro ⟨hk, h1, h2⟩
    refine ⟨faces[k], List.getElem?_eq_getElem hk, ?_⟩
    simpa [List.getD, List.getElem?_eq_getElem hk] using And.intro h1 h2
  · rintro ⟨f, hf, h1, h2⟩
    have hk := (List.getElem?_eq_some_iff.1 hf).1
    refine ⟨hk, ?_⟩
    simp only [List.getD, hf, Option.getD_some]
    exact ⟨h1, h2⟩

/-- The query is symmetric in the end points. -/
theorem C20_symmetric (n : Nat) (faces : List (List Nat)) (h : TriMesh n faces) (hs : SimpleFaces faces) (pf : Nat → FaceBuf)
    (hb : buildPointFaces n faces = some pf) (i j : Nat) (hi : i < n) (hj : j < n) (hij : i ≠ j) :
    edgeFaces n faces pf i j = edgeFaces n faces pf j i := by
  rw [edgeFaces_simple h hs hb hi hij, edgeFaces_simple h hs hb hj hij.symm]
  simp only [sharedBy, facesWith, Bool.and_comm]

/-- With a repeated corner the reported number and the list disagree: face `(0,0,1)` alone is reported
four times for the edge `(0,1)`, but only two cells are written. -/
theorem C20_repeated_corner_false :
    ∃ pf b, buildPointFaces 2 [[0, 0, 1]] = some pf ∧ numEdgeFaces 2 [[0, 0, 1]] pf 0 1 = some 4 ∧
      edgeFaces 2 [[0, 0, 1]] pf 0 1 = some b ∧ b.items.length = 2 ∧ b.cap = 4 := by
  refine ⟨_, _, rfl, rfl, rfl, rfl, rfl⟩

example : SimpleFaces [[0, 1, 2], [2, 1, 3]] := by unfold SimpleFaces; decide

/-! ## C21 -/

theorem edges3_tri {f : List Nat} (h : f.length = 3) : edges3 f = some (faceEdges f) := by
  obtain ⟨a, b, c, rfl⟩ := tri_eq h; rfl

/-- The directed edges of a simple triangle join distinct corners, and every two distinct corners are
joined one way or the other. -/
theorem faceEdges_simple {f : List Nat} (h : f.length = 3) (hn : f.Nodup) :
    (∀ e ∈ faceEdges f, e.1 ∈ f ∧ e.2 ∈ f ∧ e.1 ≠ e.2) ∧ ∀ a ∈ f, ∀ b ∈ f, a ≠ b → (a, b) ∈ faceEdges f ∨ (b, a) ∈ faceEdges f := by
  obtain ⟨a, b, c, rfl⟩ := tri_eq h
  simp only [List.nodup_cons, List.mem_cons, List.not_mem_nil, or_false, not_or] at hn
  obtain ⟨⟨q1, q2⟩, q3, _⟩ := hn
  constructor
  · intro e he
    simp only [faceEdges, edgesFrom, List.mem_cons, List.not_mem_nil, or_false] at he
    rcases he with rfl | rfl | rfl
    · exact ⟨by simp, by simp, q1⟩
    · exact ⟨by simp, by simp, q3⟩
    · exact ⟨by simp, by simp, fun h => q2 h.symm⟩
  · intro x hx y hy hxy
    simp only [List.mem_cons, List.not_mem_nil, or_false] at hx hy
    simp only [faceEdges, edgesFrom, List.mem_cons, List.not_mem_nil, or_false, Prod.mk.injEq]
    rcases hx with rfl | rfl | rfl <;> rcases hy with rfl | rfl | rfl <;> simp at hxy ⊢

theorem sharedBy_comm (faces : List (List Nat)) (i j : Nat) : sharedBy faces i j = sharedBy faces j i := by
  unfold sharedBy; congr 1; funext f; rw [Bool.and_comm]

theorem tightEdges_spec {n : Nat} {faces : List (List Nat)} {pf : Nat → FaceBuf} (h : TriMesh n faces) (hs : SimpleFaces faces)
    (hb : buildPointFaces n faces = some pf) (es : List (Nat × Nat)) (he : ∀ e ∈ es, e.1 < n ∧ e.1 ≠ e.2) :
    tightEdges n faces pf es = some (es.all (fun e => decide (sharedBy faces e.1 e.2 ≠ 1))) := by
  induction es with
  | nil => rfl
  | cons e es ih =>
    obtain ⟨h1, h2⟩ := he e (by simp)
    rw [tightEdges, numEdgeFaces_simple h hs hb h1 h2]
    simp only [ih (fun e he' => he e (by simp [he'])), List.all_cons]
    split_ifs with hc <;> simp [hc]

theorem tightFaces_spec {n : Nat} {faces : List (List Nat)} {pf : Nat → FaceBuf} (h : TriMesh n faces) (hs : SimpleFaces faces)
    (hb : buildPointFaces n faces = some pf) (fs : List (List Nat)) (hf : ∀ f ∈ fs, f ∈ faces) :
    tightFaces n faces pf fs = some (fs.all (fun f => (faceEdges f).all (fun e => decide (sharedBy faces e.1 e.2 ≠ 1)))) := by
  induction fs with
  | nil => rfl
  | cons f fs ih =>
    have hm := hf f (by simp)
    rw [tightFaces, edges3_tri (h f hm).1]
    simp only
    rw [tightEdges_spec h hs hb]
    · rw [List.all_cons, ih (fun g hg => hf g (by simp [hg]))]
      cases (faceEdges f).all (fun e => decide (sharedBy faces e.1 e.2 ≠ 1)) <;> simp
    · intro e he
      obtain ⟨a, b, c⟩ := (faceEdges_simple (h f hm).1 (hs f hm)).1 e he
      exact ⟨(h f hm).2 _ a, c⟩

/-- **C21 (partial).** On a triangle mesh without repeated corners the model is reported watertight
exactly when no two distinct corners of a face are shared by that one face only.
Missing from C21: faces with repeated corners (`C21_repeated_corner_false`). -/
theorem C21_watertight_partial (n : Nat) (faces : List (List Nat)) (h : TriMesh n faces) (hs : SimpleFaces faces) :
    ∃ pf ok, buildPointFaces n faces = some pf ∧ waterTight n faces pf = some ok ∧
      (ok = true ↔ ∀ f ∈ faces, ∀ a ∈ f, ∀ b ∈ f, a ≠ b → faces.countP (fun g => decide (a ∈ g) && decide (b ∈ g)) ≠ 1) := by
  obtain ⟨pf, hb, _⟩ := C19_point_faces_transpose n faces h
  refine ⟨pf, _, hb, tightFaces_spec h hs hb faces (fun _ hf => hf), ?_⟩
  simp only [List.all_eq_true, decide_eq_true_eq]
  constructor
  · intro hh f hf a ha b hb' hab
    rcases (faceEdges_simple (h f hf).1 (hs f hf)).2 a ha b hb' hab with he | he
    · exact hh f hf _ he
    · have := hh f hf _ he
      rw [sharedBy_comm] at this; exact this
  · intro hh f hf e he
    obtain ⟨a, b, c⟩ := (faceEdges_simple (h f hf).1 (hs f hf)).1 e he
    exact hh f hf _ a _ b c

/-- **C21 is false of the code** for faces with a repeated corner: a single face `(0,0,1)` is reported
watertight although its edge `(0,1)` belongs to one face only. -/
theorem C21_repeated_corner_false :
    ∃ pf, buildPointFaces 2 [[0, 0, 1]] = some pf ∧ waterTight 2 [[0, 0, 1]] pf = some true ∧
      ([[0, 0, 1]] : List (List Nat)).countP (fun g => decide (0 ∈ g) && decide (1 ∈ g)) = 1 := by
  refine ⟨_, rfl, rfl, rfl⟩

-- a tetrahedron is watertight, one triangle is not
example : (buildPointFaces 4 [[0, 1, 2], [0, 3, 1], [1, 3, 2], [0, 2, 3]]).bind (waterTight 4 [[0, 1, 2], [0, 3, 1], [1, 3, 2], [0, 2, 3]]) = some true := by
  decide
example : (buildPointFaces 4 [[0, 1, 2]]).bind (waterTight 4 [[0, 1, 2]]) = some false := by decide

/-! ## C22 -/

/-- The edge needs repair: an end is a surface sphere and the edge is not shared by exactly two faces. -/
def badEdge (faces : List (List Nat)) (ns : Nat) (e : Nat × Nat) : Bool :=
  decide (sharedBy faces e.1 e.2 ≠ 2) && (decide (e.1 < ns) || decide (e.2 < ns))

theorem shrink_le (ns p : Nat) (r : Nat → ℝ) (hr : ∀ q, 0 < r q) :
    (∀ q, 0 < shrink ns p r q ∧ shrink ns p r q ≤ r q) ∧ (p < ns → shrink ns p r p < r p) ∧ ∀ q, ¬ q < ns → shrink ns p r q = r q := by
  refine ⟨fun q => ?_, fun h => ?_, fun q hq => ?_⟩
  · unfold shrink; split_ifs
    · have := hr q; constructor <;> nlinarith
    · exact ⟨hr q, le_refl _⟩
  · unfold shrink; rw [if_pos ⟨rfl, h⟩]; have := hr p; nlinarith
  · unfold shrink; rw [if_neg]; rintro ⟨rfl, h⟩; exact hq h

/-- Relation between the states before and after checking some edges. -/
def ValStep (ns : Nat) (bad : Bool) (s s' : ValState) : Prop :=
  s'.tight = (s.tight && !bad) ∧ (∀ q, 0 < s'.radius q ∧ s'.radius q ≤ s.radius q) ∧ (∀ q, ¬ q < ns → s'.radius q = s.radius q) ∧
    (bad = false → s'.radius = s.radius) ∧ (bad = true → ∃ q, q < ns ∧ s'.radius q < s.radius q)

theorem ValStep.refl {ns : Nat} {s : ValState} (hr : ∀ q, 0 < s.radius q) : ValStep ns false s s :=
  ⟨by simp, fun q => ⟨hr q, le_refl _⟩, fun _ _ => rfl, fun _ => rfl, by simp⟩

theorem ValStep.trans {ns : Nat} {b b' : Bool} {s s' s'' : ValState} (h : ValStep ns b s s') (h' : ValStep ns b' s' s'') :
    ValStep ns (b || b') s s'' := by
  obtain ⟨a1, a2, a3, a4, a5⟩ := h
  obtain ⟨b1, b2, b3, b4, b5⟩ := h'
  refine ⟨by rw [b1, a1]; cases s.tight <;> cases b <;> cases b' <;> rfl, fun q => ⟨(b2 q).1, le_trans (b2 q).2 (a2 q).2⟩,
    fun q hq => (b3 q hq).trans (a3 q hq), ?_, ?_⟩
  · intro hh
    simp only [Bool.or_eq_false_iff] at hh
    rw [b4 hh.2, a4 hh.1]
  · intro hh
    simp only [Bool.or_eq_true] at hh
    rcases hh with hh | hh
    · obtain ⟨q, hq, hlt⟩ := a5 hh
      exact ⟨q, hq, lt_of_le_of_lt (b2 q).2 hlt⟩
    · obtain ⟨q, hq, hlt⟩ := b5 hh
      exact ⟨q, hq, lt_of_lt_of_le hlt (a2 q).2⟩

theorem eq_two {c : Nat} (h0 : c ≠ 0) (h1 : c ≠ 1) (h2 : ¬ 2 < c) : c = 2 := by omega

theorem validateEdge_step (faces : List (List Nat)) (ns : Nat) (e : Nat × Nat) (s : ValState) (hr : ∀ q, 0 < s.radius q)
    (h0 : sharedBy faces e.1 e.2 ≠ 0) :
    ValStep ns (badEdge faces ns e) s (validateEdge ns (sharedBy faces e.1 e.2) e s) := by
  obtain ⟨p1, p2, p3⟩ := shrink_le ns e.1 s.radius hr
  obtain ⟨q1, q2, q3⟩ := shrink_le ns e.2 (shrink ns e.1 s.radius) (fun q => (p1 q).1)
  have hsh : (∀ q, 0 < shrink ns e.2 (shrink ns e.1 s.radius) q ∧ shrink ns e.2 (shrink ns e.1 s.radius) q ≤ s.radius q) :=
    fun q => ⟨(q1 q).1, le_trans (q1 q).2 (p1 q).2⟩
  have hge : ∀ q, ¬ q < ns → shrink ns e.2 (shrink ns e.1 s.radius) q = s.radius q := fun q hq => by rw [q3 q hq, p3 q hq]
  have hex : (e.1 < ns ∨ e.2 < ns) → ∃ q, q < ns ∧ shrink ns e.2 (shrink ns e.1 s.radius) q < s.radius q := by
    rintro (h | h)
    · exact ⟨e.1, h, lt_of_le_of_lt (q1 _).2 (p2 h)⟩
    · exact ⟨e.2, h, lt_of_lt_of_le (q2 h) (p1 _).2⟩
  have hno : ¬ (e.1 < ns ∨ e.2 < ns) → shrink ns e.2 (shrink ns e.1 s.radius) = s.radius := by
    intro h
    rw [not_or] at h
    funext q
    simp [shrink, h.1, h.2]
  unfold validateEdge
  by_cases hend : e.1 < ns ∨ e.2 < ns
  · have hd : (decide (e.1 < ns) || decide (e.2 < ns)) = true := by simpa using hend
    by_cases c1 : sharedBy faces e.1 e.2 = 1
    · have hbad : badEdge faces ns e = true := by simp [badEdge, c1, hend]
      rw [if_pos c1, hbad]
      exact ⟨by simp [hd], hsh, hge, by simp, fun _ => hex hend⟩
    · rw [if_neg c1]
      by_cases c2 : 2 < sharedBy faces e.1 e.2
      · have hbad : badEdge faces ns e = true := by
          have : sharedBy faces e.1 e.2 ≠ 2 := by omega
          simp [badEdge, this, hend]
        rw [if_pos ⟨c2, hend⟩, hbad]
        exact ⟨by simp, hsh, hge, by simp, fun _ => hex hend⟩
      · have : sharedBy faces e.1 e.2 = 2 := eq_two h0 c1 c2
        have hbad : badEdge faces ns e = false := by simp [badEdge, this]
        rw [if_neg (by rintro ⟨h, _⟩; exact c2 h), hbad]
        exact ValStep.refl hr
  · have hd : (decide (e.1 < ns) || decide (e.2 < ns)) = false := by
      rw [not_or] at hend; simp [hend.1, hend.2]
    have hbad : badEdge faces ns e = false := by rw [badEdge, hd]; simp
    rw [hbad]
    by_cases c1 : sharedBy faces e.1 e.2 = 1
    · rw [if_pos c1]
      exact ⟨by simp [hd], hsh, hge, fun _ => hno hend, by simp⟩
    · rw [if_neg c1, if_neg (by rintro ⟨_, h⟩; exact hend h)]
      exact ValStep.refl hr

theorem sharedBy_pos {faces : List (List Nat)} {f : List Nat} (hf : f ∈ faces) {a b : Nat} (ha : a ∈ f) (hb : b ∈ f) : sharedBy faces a b ≠ 0 := by
  unfold sharedBy
  have : 0 < faces.countP (fun f => decide (a ∈ f) && decide (b ∈ f)) := List.countP_pos_iff.2 ⟨f, hf, by simp [ha, hb]⟩
  omega

theorem validateEdges_spec {n ns : Nat} {faces : List (List Nat)} {pf : Nat → FaceBuf} (h : TriMesh n faces) (hs : SimpleFaces faces)
    (hb : buildPointFaces n faces = some pf) (es : List (Nat × Nat)) (he : ∀ e ∈ es, e.1 < n ∧ e.1 ≠ e.2 ∧ sharedBy faces e.1 e.2 ≠ 0)
    (s : ValState) (hr : ∀ q, 0 < s.radius q) :
    ∃ s', validateEdges n ns faces pf es s = some s' ∧ ValStep ns (es.any (badEdge faces ns)) s s' := by
  induction es generalizing s with
  | nil => exact ⟨s, rfl, by simpa using ValStep.refl hr⟩
  | cons e es ih =>
    obtain ⟨h1, h2, h3⟩ := he e (by simp)
    have st := validateEdge_step faces ns e s hr h3
    obtain ⟨s', e', st'⟩ := ih (fun e he' => he e (by simp [he'])) _ (fun q => (st.2.1 q).1)
    refine ⟨s', ?_, by rw [List.any_cons]; exact st.trans st'⟩
    rw [validateEdges, numEdgeFaces_simple h hs hb h1 h2]; exact e'

theorem validateFaces_spec {n ns : Nat} {faces : List (List Nat)} {pf : Nat → FaceBuf} (h : TriMesh n faces) (hs : SimpleFaces faces)
    (hb : buildPointFaces n faces = some pf) (fs : List (List Nat)) (hf : ∀ f ∈ fs, f ∈ faces)
    (s : ValState) (hr : ∀ q, 0 < s.radius q) :
    ∃ s', validateFaces n ns faces pf fs s = some s' ∧ ValStep ns (fs.any (fun f => (faceEdges f).any (badEdge faces ns))) s s' := by
  induction fs generalizing s with
  | nil => exact ⟨s, rfl, by simpa using ValStep.refl hr⟩
  | cons f fs ih =>
    have hm := hf f (by simp)
    obtain ⟨s1, e1, st1⟩ := validateEdges_spec (ns := ns) h hs hb (faceEdges f) (by
      intro e he
      obtain ⟨a, b, c⟩ := (faceEdges_simple (h f hm).1 (hs f hm)).1 e he
      exact ⟨(h f hm).2 _ a, c, sharedBy_pos hm a b⟩) s hr
    obtain ⟨s2, e2, st2⟩ := ih (fun g hg => hf g (by simp [hg])) s1 (fun q => (st1.2.1 q).1)
    refine ⟨s2, ?_, by rw [List.any_cons]; exact st1.trans st2⟩
    rw [validateFaces, edges3_tri (h f hm).1]
    simp only [e1]; exact e2

/-- **C22 (partial).** On a generated mesh of triangles without repeated corners, with positive radii:
validation finishes; it accepts exactly when every edge with an end at a surface sphere is shared by exactly
two faces; acceptance changes no radius; rejection strictly shrinks some surface sphere; no radius grows or
becomes non-positive and edge and corner spheres never change.
Missing from C22: open edges between two edge/corner spheres are not detected (`C22_open_edge_accepted_false`). -/
theorem C22_validation_partial (n ns : Nat) (faces : List (List Nat)) (h : TriMesh n faces) (hs : SimpleFaces faces)
    (r : Nat → ℝ) (hr : ∀ q, 0 < r q) :
    ∃ s, validateSurface n ns faces r = some s ∧
      (s.tight = true ↔ ∀ f ∈ faces, ∀ a ∈ f, ∀ b ∈ f, a ≠ b → a < ns →
        faces.countP (fun g => decide (a ∈ g) && decide (b ∈ g)) = 2) ∧
      (s.tight = true → s.radius = r) ∧ (s.tight = false → ∃ q, q < ns ∧ s.radius q < r q) ∧
      (∀ q, 0 < s.radius q ∧ s.radius q ≤ r q) ∧ ∀ q, ¬ q < ns → s.radius q = r q := by
  obtain ⟨pf, hb, _⟩ := C19_point_faces_transpose n faces h
  obtain ⟨s, e, st⟩ := validateFaces_spec (ns := ns) h hs hb faces (fun _ hf => hf) { tight := true, radius := r } hr
  obtain ⟨a1, a2, a3, a4, a5⟩ := st
  simp only [Bool.true_and] at a1
  refine ⟨s, by rw [validateSurface, hb]; exact e, ?_, ?_, ?_, a2, a3⟩
  · rw [a1, Bool.not_eq_true', List.any_eq_false]
    simp only [List.any_eq_true, not_exists, not_and, Bool.not_eq_true]
    constructor
    · intro hh f hf a ha b hb' hab hns
      have key : ∀ e ∈ faceEdges f, (e.1 < ns ∨ e.2 < ns) → sharedBy faces e.1 e.2 = 2 := by
        intro e he hor
        have := hh f hf e he
        by_contra hne
        simp [badEdge, hne, hor] at this
        omega
      rcases (faceEdges_simple (h f hf).1 (hs f hf)).2 a ha b hb' hab with he | he
      · exact key _ he (Or.inl hns)
      · have := key _ he (Or.inr hns)
        rw [sharedBy_comm] at this; exact this
    · intro hh f hf e he
      obtain ⟨p1, p2, p3⟩ := (faceEdges_simple (h f hf).1 (hs f hf)).1 e he
      by_cases hor : e.1 < ns ∨ e.2 < ns
      · have : sharedBy faces e.1 e.2 = 2 := by
          rcases hor with h1 | h1
          · exact hh f hf _ p1 _ p2 p3 h1
          · rw [sharedBy_comm]; exact hh f hf _ p2 _ p1 p3.symm h1
        simp [badEdge, this]
      · rw [not_or] at hor
        simp [badEdge, hor.1, hor.2]
  · intro ht
    exact a4 (by rw [a1] at ht; simpa using ht)
  · intro ht
    exact a5 (by rw [a1] at ht; simpa using ht)

/-- **C22 is false of the code**: a surface consisting of a single triangle whose corners are all edge or
corner spheres is declared correct, although each of its edges belongs to one face only. -/
theorem C22_open_edge_accepted_false (r : Nat → ℝ) (hr : ∀ q, 0 < r q) :
    ∃ s, validateSurface 3 0 [[0, 1, 2]] r = some s ∧ s.tight = true ∧
      ([[0, 1, 2]] : List (List Nat)).countP (fun g => decide (0 ∈ g) && decide (1 ∈ g)) = 1 := by
  obtain ⟨s, e, ht, _⟩ := C22_validation_partial 3 0 [[0, 1, 2]] (by unfold TriMesh; decide) (by unfold SimpleFaces; decide) r hr
  exact ⟨s, e, ht.2 (by intro _ _ _ _ _ _ _ hh; omega), rfl⟩

-- a single triangle with a surface-sphere corner is rejected
example : ∃ s, validateSurface 3 1 [[0, 1, 2]] (fun _ => 1) = some s ∧ s.tight = false := by
  obtain ⟨s, e, ht, _⟩ := C22_validation_partial 3 1 [[0, 1, 2]] (by unfold TriMesh; decide) (by unfold SimpleFaces; decide) (fun _ => 1) (fun _ => one_pos)
  refine ⟨s, e, ?_⟩
  by_contra hne
  have := ht.1 (by simpa using hne) [0, 1, 2] (by simp) 0 (by simp) 1 (by simp) (by simp) (by simp)
  simp [List.countP_cons] at this

/-! ## C18 -/

/-- Invariant of the renumbering loop after the points `done`. -/
structure RenumOK {α : Type} (used : Nat → Prop) (done kept : List α) (tab : List (Option Nat)) : Prop where
  len : tab.length = done.length
  hit : ∀ c, c < done.length → used c → ∃ k x, tab[c]? = some (some k) ∧ kept[k]? = some x ∧ done[c]? = some x
  inj : ∀ c c' k : Nat, tab[c]? = some (some k) → tab[c']? = some (some k) → c = c'
  onto : ∀ k, k < kept.length → ∃ c, c < done.length ∧ used c ∧ tab[c]? = some (some k)
  bound : ∀ c k : Nat, tab[c]? = some (some k) → k < kept.length

theorem getElem?_snoc {α : Type} (l : List α) (x : α) (c : Nat) :
    (l ++ [x])[c]? = if c < l.length then l[c]? else if c = l.length then some x else none := by
  split_ifs with h1 h2
  · exact List.getElem?_append_left h1
  · subst h2; simp
  · rw [List.getElem?_append_right (by omega)]
    rw [List.getElem?_eq_none]; simp; omega

theorem renumber_spec {α : Type} (pf : Nat → FaceBuf) (used : Nat → Prop) [DecidablePred used] (hu : ∀ i, used i ↔ (pf i).items.length ≠ 0)
    (xs done kept : List α) (tab : List (Option Nat)) (h : RenumOK used done kept tab) :
    RenumOK used (done ++ xs) (renumber pf xs done.length (kept, tab)).1 (renumber pf xs done.length (kept, tab)).2 ∧
      (renumber pf xs done.length (kept, tab)).1 =
        kept ++ ((xs.zipIdx done.length).filter (fun y => decide (used y.2))).map Prod.fst := by
  induction xs generalizing done kept tab with
  | nil => simpa [renumber] using h
  | cons x xs ih =>
    obtain ⟨l1, l2, l3, l4, l5⟩ := h
    rw [List.zipIdx_cons]
    by_cases hz : (pf done.length).items.length = 0
    · have hnu : ¬ used done.length := by rw [hu]; simpa using hz
      have := ih (done ++ [x]) kept (tab ++ [none]) (by
        constructor
        · simp [l1]
        · intro c hc huc
          by_cases hcl : c < done.length
          · obtain ⟨k, y, e1, e2, e3⟩ := l2 c hcl huc
            refine ⟨k, y, ?_, e2, ?_⟩
            · rw [getElem?_snoc, if_pos (by omega)]; exact e1
            · rw [getElem?_snoc, if_pos hcl]; exact e3
          · have : c = done.length := by simp at hc; omega
            subst this; exact absurd huc hnu
        · intro c c' k e1 e2
          rw [getElem?_snoc] at e1 e2
          split_ifs at e1 e2
          all_goals first | exact l3 c c' k e1 e2 | simp at e1 | simp at e2
        · intro k hk
          obtain ⟨c, hc, huc, e⟩ := l4 k hk
          exact ⟨c, by simp; omega, huc, by rw [getElem?_snoc, if_pos (by omega)]; exact e⟩
        · intro c k e
          rw [getElem?_snoc] at e
          split_ifs at e
          · exact l5 c k e
          all_goals simp at e)
      rw [renumber, if_pos hz]
      rw [List.length_append, List.length_singleton] at this
      rw [List.filter_cons_of_neg (by simpa using hnu)]
      simpa using this
    · have hyu : used done.length := (hu _).2 hz
      have := ih (done ++ [x]) (kept ++ [x]) (tab ++ [some kept.length]) (by
        constructor
        · simp [l1]
        · intro c hc huc
          by_cases hcl : c < done.length
          · obtain ⟨k, y, e1, e2, e3⟩ := l2 c hcl huc
            refine ⟨k, y, ?_, ?_, ?_⟩
            · rw [getElem?_snoc, if_pos (by omega)]; exact e1
            · rw [getElem?_snoc, if_pos (List.getElem?_eq_some_iff.1 e2).1]; exact e2
            · rw [getElem?_snoc, if_pos hcl]; exact e3
          · have : c = done.length := by simp at hc; omega
            subst this
            refine ⟨kept.length, x, ?_, by simp, by simp⟩
            rw [getElem?_snoc, if_neg (by omega), if_pos (by omega)]
        · intro c c' k e1 e2
          rw [getElem?_snoc] at e1 e2
          split_ifs at e1 e2
          · exact l3 c c' k e1 e2
          · have := l5 c k e1
            simp at e2; omega
          · have := l5 c' k e2
            simp at e1; omega
          · omega
        · intro k hk
          by_cases hkl : k < kept.length
          · obtain ⟨c, hc, huc, e⟩ := l4 k hkl
            exact ⟨c, by simp; omega, huc, by rw [getElem?_snoc, if_pos (by omega)]; exact e⟩
          · have : k = kept.length := by simp at hk; omega
            subst this
            exact ⟨done.length, by simp, hyu, by rw [getElem?_snoc, if_neg (by omega), if_pos (by omega)]⟩
        · intro c k e
          rw [getElem?_snoc] at e
          split_ifs at e
          · have := l5 c k e; simp; omega
          · simp at e; subst e; simp)
      rw [renumber, if_neg hz]
      rw [List.length_append, List.length_singleton] at this
      rw [List.filter_cons_of_pos (by simpa using hyu)]
      simpa using this

theorem mapM_some {α β : Type} (f : α → Option β) (l : List α) (h : ∀ a ∈ l, ∃ b, f a = some b) :
    ∃ l', l.mapM f = some l' ∧ List.Forall₂ (fun a b => f a = some b) l l' := by
  induction l with
  | nil => exact ⟨[], rfl, List.Forall₂.nil⟩
  | cons a l ih =>
    obtain ⟨b, hb⟩ := h a (by simp)
    obtain ⟨l', e, hl'⟩ := ih (fun a ha => h a (by simp [ha]))
    exact ⟨b :: l', by simp [List.mapM_cons, hb, e], List.Forall₂.cons hb hl'⟩

theorem mapM_some_inv {α β : Type} (f : α → Option β) (l : List α) (l' : List β) (h : l.mapM f = some l') :
    List.Forall₂ (fun a b => f a = some b) l l' := by
  induction l generalizing l' with
  | nil => simp at h; subst h; exact List.Forall₂.nil
  | cons a l ih =>
    rw [List.mapM_cons] at h
    cases hf : f a with
    | none => rw [hf] at h; simp at h
    | some b =>
      rw [hf] at h
      cases hl : l.mapM f with
      | none => rw [hl] at h; simp at h
      | some l1 =>
        rw [hl] at h
        simp at h
        subst h
        exact List.Forall₂.cons hf (ih l1 hl)

/-- The face `g` on the points `points'` is the face `f` on the points `points`: corner by corner the same point. -/
def SameCorners {α : Type} (points points' : List α) (f g : List Nat) : Prop :=
  List.Forall₂ (fun c m => ∃ x, points[c]? = some x ∧ points'[m]? = some x) f g

/-- **C18.** On a triangle mesh with valid indices, removing isolated points keeps exactly the points used
by some face, in order; each face keeps its corner points; every remaining point is used; and the incidence
lists returned are those of the new mesh.  The point type is arbitrary, so corner identity is preserved, not only
coordinates. -/
theorem C18_remove_isolated {α : Type} (points : List α) (faces : List (List Nat)) (h : TriMesh points.length faces) (pf : Nat → FaceBuf)
    (hb : buildPointFaces points.length faces = some pf) :
    ∃ points' faces' pf', removeIsolated points faces pf = some (points', faces', pf') ∧
      points' = (points.zipIdx.filter (fun y => decide (∃ f ∈ faces, y.2 ∈ f))).map Prod.fst ∧
      List.Forall₂ (SameCorners points points') faces faces' ∧
      TriMesh points'.length faces' ∧ (∀ p, p < points'.length → ∃ f ∈ faces', p ∈ f) ∧
      buildPointFaces points'.length faces' = some pf' := by
  have hused : ∀ i, (∃ f ∈ faces, i ∈ f) ↔ (pf i).items.length ≠ 0 := by
    intro i
    rw [buildPointFaces_eq _ faces h] at hb
    cases hb
    simp only [inc_length]
    rw [← Nat.pos_iff_ne_zero, List.count_pos_iff, List.mem_flatten]
  unfold removeIsolated
  by_cases hall : (List.range points.length).all (fun i => !((pf i).items.length == 0)) = true
  · rw [if_pos hall]
    have hall' : ∀ i, i < points.length → ∃ f ∈ faces, i ∈ f := by
      intro i hi
      rw [List.all_eq_true] at hall
      have := hall i (List.mem_range.2 hi)
      rw [hused]; simpa using this
    refine ⟨points, faces, pf, rfl, ?_, ?_, h, hall', hb⟩
    · rw [List.filter_eq_self.2]
      · simp
      · rintro ⟨x, i⟩ hm
        have := List.snd_lt_of_mem_zipIdx hm
        simp only [decide_eq_true_eq]
        exact hall' i (by simpa using this)
    · refine List.forall₂_same.2 (fun f hf => List.forall₂_same.2 (fun c hc => ?_))
      have := (h f hf).2 c hc
      exact ⟨points[c], List.getElem?_eq_getElem this, List.getElem?_eq_getElem this⟩
  · rw [if_neg hall]
    obtain ⟨hok, hkept⟩ := renumber_spec pf (fun i => ∃ f ∈ faces, i ∈ f) hused points [] [] []
      ⟨rfl, by simp, by simp, by simp, by simp⟩
    simp only [List.nil_append, List.length_nil] at hok hkept
    obtain ⟨l1, l2, l3, l4, l5⟩ := hok
    generalize hR : renumber pf points 0 ([], []) = R at *
    obtain ⟨kept, tab⟩ := R
    simp only at l1 l2 l3 l4 l5 hkept ⊢
    have hcorner : ∀ f ∈ faces, ∀ c ∈ f, ∃ k x, tab[c]? = some (some k) ∧ kept[k]? = some x ∧ points[c]? = some x :=
      fun f hf c hc => l2 c ((h f hf).2 c hc) ⟨f, hf, hc⟩
    obtain ⟨fs, e, hfs⟩ := mapM_some (reindexFace tab) faces (by
      intro f hf
      obtain ⟨g, hg, _⟩ := mapM_some (fun c => match tab[c]? with | some (some k) => some k | _ => none) f (by
        intro c hc
        obtain ⟨k, x, e1, _⟩ := hcorner f hf c hc
        exact ⟨k, by simp only [e1]⟩)
      exact ⟨g, hg⟩)
    -- corner by corner
    have hrel : List.Forall₂ (fun f g => f ∈ faces ∧ List.Forall₂ (fun c m => tab[c]? = some (some m)) f g) faces fs := by
      have hmem : ∀ f ∈ faces, f ∈ faces := fun _ h => h
      clear e
      generalize hF : faces = F at hfs
      rw [hF] at hmem
      have hmem' : ∀ f ∈ F, f ∈ F := fun _ h => h
      clear hmem
      have : ∀ (L : List (List Nat)) (M : List (List Nat)), (∀ f ∈ L, f ∈ F) → List.Forall₂ (fun a b => reindexFace tab a = some b) L M →
          List.Forall₂ (fun f g => f ∈ F ∧ List.Forall₂ (fun c m => tab[c]? = some (some m)) f g) L M := by
        intro L M hL hLM
        induction hLM with
        | nil => exact List.Forall₂.nil
        | cons hab _ ih =>
          refine List.Forall₂.cons ⟨hL _ (by simp), ?_⟩ (ih (fun f hf => hL f (by simp [hf])))
          refine List.Forall₂.imp ?_ (mapM_some_inv _ _ _ hab)
          intro c m hcm
          cases ht : tab[c]? with
          | none => rw [ht] at hcm; simp at hcm
          | some o =>
            rw [ht] at hcm
            cases o with
            | none => simp at hcm
            | some k => simp at hcm; rw [hcm]
      exact this F fs hmem' hfs
    have hsame : List.Forall₂ (SameCorners points kept) faces fs := by
      refine List.Forall₂.imp ?_ hrel
      rintro f g ⟨hf, hfg⟩
      have hc := hcorner f hf
      clear hf
      induction hfg with
      | nil => exact List.Forall₂.nil
      | cons hab _ ih =>
        refine List.Forall₂.cons ?_ (ih (fun c hc' => hc c (by simp [hc'])))
        obtain ⟨k, x, e1, e2, e3⟩ := hc _ (List.mem_cons_self)
        rw [hab] at e1
        simp at e1
        subst e1
        exact ⟨x, e3, e2⟩
    have htri : TriMesh kept.length fs := by
      intro g hg
      obtain ⟨k, hk, rfl⟩ := List.getElem_of_mem hg
      have hlen := hrel.length_eq
      have hr := hrel.get (i := k) (by omega) hk
      simp only [List.get_eq_getElem] at hr
      obtain ⟨hf, hfg⟩ := hr
      refine ⟨by rw [← hfg.length_eq]; exact (h _ hf).1, ?_⟩
      intro m hm
      obtain ⟨q, hq, rfl⟩ := List.getElem_of_mem hm
      have := hfg.get (i := q) (by rw [hfg.length_eq]; exact hq) hq
      exact l5 _ _ this
    have hb' := buildPointFaces_eq kept.length fs htri
    refine ⟨kept, fs, _, by rw [e]; simp only [hb'], hkept, hsame, htri, ?_, hb'⟩
    intro p hp
    obtain ⟨c, hc, ⟨f, hf, hcf⟩, ht⟩ := l4 p hp
    obtain ⟨k, hk, rfl⟩ := List.getElem_of_mem hf
    have hlen := hrel.length_eq
    have hr := hrel.get (i := k) hk (by omega)
    simp only [List.get_eq_getElem] at hr
    obtain ⟨_, hfg⟩ := hr
    obtain ⟨q, hq, hqe⟩ := List.getElem_of_mem hcf
    have hq' : q < (fs[k]'(by omega)).length := by rw [← hfg.length_eq]; exact hq
    have := hfg.get (i := q) hq hq'
    simp only [List.get_eq_getElem] at this
    rw [hqe, ht] at this
    simp at this
    refine ⟨fs[k]'(by omega), List.getElem_mem _, ?_⟩
    rw [this]; exact List.getElem_mem _

-- points "b" and "d" are isolated
example : (buildPointFaces 5 [[0, 2, 4]]).bind (fun pf => (removeIsolated ["a", "b", "c", "d", "e"] [[0, 2, 4]] pf).map (fun r => (r.1, r.2.1))) =
    some (["a", "c", "e"], [[0, 1, 2]]) := by decide

end VoroCrust
