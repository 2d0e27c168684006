import Verif.Model.Sharp
import Verif.Props.Mesh
import Mathlib.Data.Set.Card
import Mathlib.Data.Finset.Card
import Mathlib.Data.List.Nodup

/-! # Sharp edges and corners of a clean model (C61, C78) -/

namespace VoroCrust

/-- What one directed edge adds to the table. -/
def sharpEmit (faces : List (List Nat)) (sharp : Nat → Nat → Bool) (e : Nat × Nat) : List (Nat × Nat) :=
  if sharedBy faces e.1 e.2 ≠ 2 then [edgePair e]
  else if e.1 < e.2 then (match facesWith faces e.1 e.2 with | fi :: fj :: _ => if sharp fi fj then [edgePair e] else [] | _ => [])
  else []

theorem two_faces {faces : List (List Nat)} {a b : Nat} (h : sharedBy faces a b = 2) : ∃ fi fj, facesWith faces a b = [fi, fj] := by
  have := facesWith_length faces a b
  rw [h] at this
  match e : facesWith faces a b, this with
  | [fi, fj], _ => exact ⟨fi, fj, rfl⟩

theorem sharpEdge_eq {n : Nat} {faces : List (List Nat)} {pf : Nat → FaceBuf} (h : TriMesh n faces) (hs : SimpleFaces faces) (hb : buildPointFaces n faces = some pf) (sharp : Nat → Nat → Bool) {e : Nat × Nat}
    (h1 : e.1 < n) (h2 : e.1 ≠ e.2) : sharpEdge n faces pf sharp e = some (sharpEmit faces sharp e) := by
  unfold sharpEdge sharpEmit
  rw [numEdgeFaces_simple h hs hb h1 h2, edgeFaces_simple h hs hb h1 h2]
  simp only
  by_cases hc : sharedBy faces e.1 e.2 = 2
  · obtain ⟨fi, fj, ef⟩ := two_faces hc
    rw [ef, hc]
    simp only [ne_eq, not_true_eq_false, if_false]
    split_ifs <;> rfl
  · rw [if_pos hc, if_pos hc]

theorem sharpOfEdges_eq {n : Nat} {faces : List (List Nat)} {pf : Nat → FaceBuf} (h : TriMesh n faces) (hs : SimpleFaces faces) (hb : buildPointFaces n faces = some pf) (sharp : Nat → Nat → Bool) (es : List (Nat × Nat)) :
    (∀ e ∈ es, e.1 < n ∧ e.1 ≠ e.2) → sharpOfEdges n faces pf sharp es = some (es.flatMap (sharpEmit faces sharp)) := by
  induction es with
  | nil => intro _; rfl
  | cons e es ih =>
    intro he
    rw [sharpOfEdges, sharpEdge_eq h hs hb sharp (he e (by simp)).1 (he e (by simp)).2, ih (fun x hx => he x (by simp [hx]))]
    simp

theorem sharpOfFaces_eq {n : Nat} {faces : List (List Nat)} {pf : Nat → FaceBuf} (h : TriMesh n faces) (hs : SimpleFaces faces) (hb : buildPointFaces n faces = some pf) (sharp : Nat → Nat → Bool) (fs : List (List Nat)) :
    (∀ f ∈ fs, f ∈ faces) → sharpOfFaces n faces pf sharp fs = some (fs.flatMap fun f => (faceEdges f).flatMap (sharpEmit faces sharp)) := by
  induction fs with
  | nil => intro _; rfl
  | cons f fs ih =>
    intro hf
    have hf0 := hf f (by simp)
    rw [sharpOfFaces, edges3_tri (h f hf0).1]
    simp only
    rw [sharpOfEdges_eq h hs hb sharp (faceEdges f) (fun e he => ?_), ih (fun x hx => hf x (by simp [hx]))]
    · simp
    · obtain ⟨g1, g2, g3⟩ := (faceEdges_simple (h f hf0).1 (hs f hf0)).1 e he
      exact ⟨(h f hf0).2 _ g1, g3⟩

theorem sharpEdges_eq {n : Nat} {faces : List (List Nat)} (h : TriMesh n faces) (hs : SimpleFaces faces) (sharp : Nat → Nat → Bool) :
    sharpEdges n faces sharp = some (faces.flatMap fun f => (faceEdges f).flatMap (sharpEmit faces sharp)) := by
  have hb := buildPointFaces_eq n faces h
  unfold sharpEdges
  rw [hb]
  exact sharpOfFaces_eq h hs hb sharp faces fun _ hf => hf

theorem edgePair_lt {e : Nat × Nat} (h : e.1 ≠ e.2) : (edgePair e).1 < (edgePair e).2 := by
  unfold edgePair
  split_ifs with g
  · exact g
  · simp only; omega

theorem edgePair_eq {e : Nat × Nat} {a b : Nat} (hab : a < b) : edgePair e = (a, b) ↔ e = (a, b) ∨ e = (b, a) := by
  obtain ⟨x, y⟩ := e
  unfold edgePair
  simp only
  split_ifs with g
  · simp only [Prod.mk.injEq]; omega
  · simp only [Prod.mk.injEq]; omega

/-- The number of entries of one directed edge. -/
theorem sharpEmit_count (faces : List (List Nat)) (sharp : Nat → Nat → Bool) {e : Nat × Nat} {a b : Nat} (hab : a < b) :
    (sharedBy faces a b ≠ 2 → (sharpEmit faces sharp e).count (a, b) = edgeHit a b e) ∧
    (∀ fi fj, facesWith faces a b = [fi, fj] → (sharpEmit faces sharp e).count (a, b) = if sharp fi fj then (if e = (a, b) then 1 else 0) else 0) := by
  have key : ∀ c, (a, b) ∈ sharpEmit faces sharp e → c = (a, b) → edgePair e = c := by
    intro c hm hc
    unfold sharpEmit at hm
    split_ifs at hm
    · rw [hc]; exact (List.mem_singleton.1 hm).symm
    · split at hm
      · split_ifs at hm
        · rw [hc]; exact (List.mem_singleton.1 hm).symm
        · simp at hm
      · simp at hm
    · simp at hm
  constructor
  · intro h2
    by_cases he : e = (a, b) ∨ e = (b, a)
    · have hs : sharedBy faces e.1 e.2 ≠ 2 := by
        rcases he with rfl | rfl
        · exact h2
        · rw [sharedBy_comm]; exact h2
      unfold sharpEmit
      rw [if_pos hs, (edgePair_eq hab).2 he]
      rcases he with rfl | rfl
      · have : ¬ (a = b ∧ b = a) := by omega
        simp [edgeHit, this]
      · have : ¬ (b = a ∧ a = b) := by omega
        simp [edgeHit, this]
    · rw [List.count_eq_zero.2 (fun hm => he ((edgePair_eq hab).1 (key _ hm rfl)))]
      unfold edgeHit
      obtain ⟨x, y⟩ := e
      simp only [Prod.mk.injEq, not_or] at he
      rw [if_neg he.1, if_neg he.2]
  · intro fi fj hf
    have h2 : sharedBy faces a b = 2 := by rw [← facesWith_length, hf]; rfl
    by_cases he : e = (a, b)
    · subst he
      unfold sharpEmit
      rw [if_neg (by simp [h2]), if_pos hab]
      simp only
      rw [hf]
      simp only [if_true]
      split_ifs
      · rw [(edgePair_eq hab).2 (Or.inl rfl)]; simp
      · rfl
    · rw [if_neg he, ite_self]
      rw [List.count_eq_zero]
      intro hm
      rcases (edgePair_eq hab).1 (key _ hm rfl) with rfl | rfl
      · exact he rfl
      · unfold sharpEmit at hm
        simp only at hm
        rw [if_neg (by rw [sharedBy_comm]; simp [h2]), if_neg (by omega)] at hm
        simp at hm

theorem sum_map_countP {α : Type} (l : List α) (p : α → Bool) : (l.map fun x => if p x = true then 1 else 0).sum = l.countP p := by
  induction l with
  | nil => rfl
  | cons x l ih => rw [List.map_cons, List.sum_cons, ih, List.countP_cons]; omega

theorem faceEdges_count {f : List Nat} (h : f.length = 3) (hn : f.Nodup) (a b : Nat) : (faceEdges f).count (a, b) = if (a, b) ∈ faceEdges f then 1 else 0 := by
  have hd : (faceEdges f).Nodup := by
    obtain ⟨x, y, z, rfl⟩ := tri_eq h
    simp only [List.nodup_cons, List.mem_cons, List.not_mem_nil, or_false, not_or] at hn
    simp only [faceEdges, edgesFrom, List.nodup_cons, List.mem_cons, List.not_mem_nil, or_false, not_or, Prod.mk.injEq]
    exact ⟨⟨by omega, by omega⟩, by omega, by simp⟩
  split_ifs with g
  · exact List.count_eq_one_of_mem hd g
  · exact List.count_eq_zero.2 g

/-! ## C61 -/

/-- **C61**, how often an edge is listed: for every triangle mesh without repeated corners, all entries have their end points in ascending order.  An edge that does not belong to exactly two faces is listed as often as it
belongs to a face.  An edge of two faces is listed, if the two faces make a sharp angle, as often as a face runs through it in ascending direction, and otherwise never. -/
theorem C61_multiplicity (n : Nat) (faces : List (List Nat)) (h : TriMesh n faces) (hs : SimpleFaces faces) (sharp : Nat → Nat → Bool) :
    ∃ es, sharpEdges n faces sharp = some es ∧ (∀ e ∈ es, e.1 < e.2 ∧ e.2 < n) ∧ ∀ a b, a < b →
      (faces.countP (fun f => decide (a ∈ f) && decide (b ∈ f)) ≠ 2 → es.count (a, b) = faces.countP fun f => decide (a ∈ f) && decide (b ∈ f)) ∧
      (faces.countP (fun f => decide (a ∈ f) && decide (b ∈ f)) = 2 → ∀ fi fj f g, fi < fj → faces[fi]? = some f → faces[fj]? = some g → a ∈ f → b ∈ f → a ∈ g → b ∈ g →
        es.count (a, b) = if sharp fi fj then faces.countP (fun f => decide ((a, b) ∈ faceEdges f)) else 0) := by
  refine ⟨_, sharpEdges_eq h hs sharp, ?_, fun a b hab => ⟨fun h2 => ?_, fun h2 fi fj f g hij hf hg af bf ag bg => ?_⟩⟩
  · intro e he
    obtain ⟨f, hf, he⟩ := List.mem_flatMap.1 he
    obtain ⟨e', he', he⟩ := List.mem_flatMap.1 he
    obtain ⟨g1, g2, g3⟩ := (faceEdges_simple (h f hf).1 (hs f hf)).1 e' he'
    have : e = edgePair e' := by
      unfold sharpEmit at he
      split_ifs at he
      · exact List.mem_singleton.1 he
      · split at he
        · split_ifs at he
          · exact List.mem_singleton.1 he
          · simp at he
        · simp at he
      · simp at he
    rw [this]
    refine ⟨edgePair_lt g3, ?_⟩
    unfold edgePair
    split_ifs
    · exact (h f hf).2 _ g2
    · exact (h f hf).2 _ g1
  · rw [List.count_flatMap]
    have : ∀ f ∈ faces, ((List.count (a, b)) ∘ fun f => (faceEdges f).flatMap (sharpEmit faces sharp)) f = if (decide (a ∈ f) && decide (b ∈ f)) = true then 1 else 0 := by
      intro f hf
      simp only [Function.comp]
      rw [List.count_flatMap, List.map_congr_left (f := List.count (a, b) ∘ sharpEmit faces sharp) (g := edgeHit a b) (fun e _ => (sharpEmit_count faces sharp (e := e) hab).1 h2)]
      have := hits_simple (h f hf).1 (hs f hf) (i := a) (j := b) (by omega)
      unfold hits at this
      rw [this]
      simp only [Bool.and_eq_true, decide_eq_true_eq]
    rw [List.map_congr_left this, sum_map_countP]
  · have hw : facesWith faces a b = [fi, fj] := by
      obtain ⟨p, q, e⟩ := two_faces h2
      have hpq : p < q := by
        have : (facesWith faces a b).Pairwise (· < ·) := List.Pairwise.filter _ List.pairwise_lt_range
        rw [e] at this
        simpa using this
      have hmem : ∀ (k : Nat) (u : List Nat), faces[k]? = some u → a ∈ u → b ∈ u → k ∈ facesWith faces a b := by
        intro k u hk au bu
        simp only [facesWith, List.mem_filter, List.mem_range, Bool.and_eq_true, decide_eq_true_eq]
        refine ⟨(List.getElem?_eq_some_iff.1 hk).1, ?_⟩
        simp only [List.getD, hk, Option.getD_some]
        exact ⟨au, bu⟩
      have m1 := hmem fi f hf af bf
      have m2 := hmem fj g hg ag bg
      rw [e] at m1 m2 ⊢
      simp only [List.mem_cons, List.not_mem_nil, or_false] at m1 m2
      have : p = fi ∧ q = fj := by omega
      rw [this.1, this.2]
    rw [List.count_flatMap]
    have : ∀ u ∈ faces, ((List.count (a, b)) ∘ fun f => (faceEdges f).flatMap (sharpEmit faces sharp)) u = if (sharp fi fj && decide ((a, b) ∈ faceEdges u)) = true then 1 else 0 := by
      intro u hu
      simp only [Function.comp]
      rw [List.count_flatMap, List.map_congr_left (f := List.count (a, b) ∘ sharpEmit faces sharp) (g := fun e => if sharp fi fj then (if e = (a, b) then 1 else 0) else 0) (fun e _ => (sharpEmit_count faces sharp (e := e) hab).2 fi fj hw)]
      cases sharp fi fj
      · simp
      · simp only [if_true, Bool.true_and, decide_eq_true_eq]
        rw [← faceEdges_count (h u hu).1 (hs u hu), List.count_eq_countP, ← sum_map_countP]
        simp
    rw [List.map_congr_left this, sum_map_countP]
    cases sharp fi fj
    · simp
    · simp

/-- **C61** (partial): if no edge belongs to more than two faces and the two faces of an edge run through it in opposite directions, every sharp edge is listed exactly once, with its end points in ascending order, and nothing else:
an edge is sharp if it belongs to one face only or its two faces make a sharp angle.  Missing: other meshes (`C61_valence_three_false`, `C61_orientation_false`). -/
theorem C61_once_partial (n : Nat) (faces : List (List Nat)) (h : TriMesh n faces) (hs : SimpleFaces faces) (sharp : Nat → Nat → Bool)
    (hval : ∀ a b, a ≠ b → faces.countP (fun f => decide (a ∈ f) && decide (b ∈ f)) ≤ 2)
    (hor : ∀ a b, a ≠ b → faces.countP (fun f => decide (a ∈ f) && decide (b ∈ f)) = 2 → faces.countP (fun f => decide ((a, b) ∈ faceEdges f)) = 1) :
    ∃ es, sharpEdges n faces sharp = some es ∧ es.Nodup ∧ ∀ a b, (a, b) ∈ es ↔ a < b ∧ (faces.countP (fun f => decide (a ∈ f) && decide (b ∈ f)) = 1 ∨
      ∃ (fi fj : Nat) (f g : List Nat), fi < fj ∧ faces[fi]? = some f ∧ faces[fj]? = some g ∧ a ∈ f ∧ b ∈ f ∧ a ∈ g ∧ b ∈ g ∧ sharp fi fj = true) := by
  obtain ⟨es, e, h1, h2⟩ := C61_multiplicity n faces h hs sharp
  have hfind : ∀ a b, faces.countP (fun f => decide (a ∈ f) && decide (b ∈ f)) = 2 → ∃ (fi fj : Nat) (f g : List Nat), fi < fj ∧ faces[fi]? = some f ∧ faces[fj]? = some g ∧ a ∈ f ∧ b ∈ f ∧ a ∈ g ∧ b ∈ g := by
    intro a b hc
    obtain ⟨p, q, e⟩ := two_faces hc
    have hpq : p < q := by
      have : (facesWith faces a b).Pairwise (· < ·) := List.Pairwise.filter _ List.pairwise_lt_range
      rw [e] at this
      simpa using this
    have hm : ∀ k ∈ facesWith faces a b, ∃ f, faces[k]? = some f ∧ a ∈ f ∧ b ∈ f := by
      intro k hk
      simp only [facesWith, List.mem_filter, List.mem_range, Bool.and_eq_true, decide_eq_true_eq] at hk
      obtain ⟨hk, h1, h2⟩ := hk
      refine ⟨faces[k], List.getElem?_eq_getElem hk, ?_⟩
      simpa [List.getD, List.getElem?_eq_getElem hk] using And.intro h1 h2
    obtain ⟨f, f1, f2, f3⟩ := hm p (by rw [e]; simp)
    obtain ⟨g, g1, g2, g3⟩ := hm q (by rw [e]; simp)
    exact ⟨p, q, f, g, hpq, f1, g1, f2, f3, g2, g3⟩
  have hle : ∀ a b, a < b → es.count (a, b) ≤ 1 := by
    intro a b hab
    obtain ⟨m1, m2⟩ := h2 a b hab
    by_cases hc : faces.countP (fun f => decide (a ∈ f) && decide (b ∈ f)) = 2
    · obtain ⟨fi, fj, f, g, hij, hf, hg, af, bf, ag, bg⟩ := hfind a b hc
      rw [m2 hc fi fj f g hij hf hg af bf ag bg, hor a b (by omega) hc]
      split_ifs <;> omega
    · have := hval a b (by omega)
      rw [m1 hc]
      omega
  refine ⟨es, e, ?_, fun a b => ?_⟩
  · rw [List.nodup_iff_count_le_one]
    rintro ⟨a, b⟩
    by_cases hm : (a, b) ∈ es
    · exact hle a b (h1 _ hm).1
    · rw [List.count_eq_zero.2 hm]; omega
  · constructor
    · intro hm
      have hab : a < b := (h1 _ hm).1
      refine ⟨hab, ?_⟩
      have hpos := List.count_pos_iff.2 hm
      obtain ⟨m1, m2⟩ := h2 a b hab
      by_cases hc : faces.countP (fun f => decide (a ∈ f) && decide (b ∈ f)) = 2
      · obtain ⟨fi, fj, f, g, hij, hf, hg, af, bf, ag, bg⟩ := hfind a b hc
        rw [m2 hc fi fj f g hij hf hg af bf ag bg] at hpos
        split_ifs at hpos with hsh
        · exact Or.inr ⟨fi, fj, f, g, hij, hf, hg, af, bf, ag, bg, hsh⟩
        · omega
      · have := hval a b (by omega)
        rw [m1 hc] at hpos
        exact Or.inl (by omega)
    · rintro ⟨hab, hsh⟩
      obtain ⟨m1, m2⟩ := h2 a b hab
      rw [← List.count_pos_iff]
      rcases hsh with hc | ⟨fi, fj, f, g, hij, hf, hg, af, bf, ag, bg, hsh⟩
      · rw [m1 (by omega), hc]; omega
      · have hc : faces.countP (fun f => decide (a ∈ f) && decide (b ∈ f)) = 2 := by
          have h3 : 2 ≤ sharedBy faces a b := by
            rw [← facesWith_length]
            have hmem : ∀ (k : Nat) (u : List Nat), faces[k]? = some u → a ∈ u → b ∈ u → k ∈ facesWith faces a b := by
              intro k u hk au bu
              simp only [facesWith, List.mem_filter, List.mem_range, Bool.and_eq_true, decide_eq_true_eq]
              refine ⟨(List.getElem?_eq_some_iff.1 hk).1, ?_⟩
              simp only [List.getD, hk, Option.getD_some]
              exact ⟨au, bu⟩
            have m1 := hmem fi f hf af bf
            have m2 := hmem fj g hg ag bg
            match hw : facesWith faces a b, m1, m2 with
            | [x], m1, m2 => simp only [List.mem_singleton] at m1 m2; omega
            | _ :: _ :: _, _, _ => simp
          have := hval a b (by omega)
          unfold sharedBy at h3
          omega
        rw [m2 hc fi fj f g hij hf hg af bf ag bg, if_pos hsh, hor a b (by omega) hc]
        omega

/-- The case: a tetrahedron with consistent orientation. -/
example : TriMesh 4 [[0, 1, 2], [0, 3, 1], [1, 3, 2], [0, 2, 3]] ∧ SimpleFaces [[0, 1, 2], [0, 3, 1], [1, 3, 2], [0, 2, 3]] ∧
    (∀ a b, a ≠ b → ([[0, 1, 2], [0, 3, 1], [1, 3, 2], [0, 2, 3]] : List (List Nat)).countP (fun f => decide (a ∈ f) && decide (b ∈ f)) ≤ 2) ∧
    (∀ a b, a ≠ b → ([[0, 1, 2], [0, 3, 1], [1, 3, 2], [0, 2, 3]] : List (List Nat)).countP (fun f => decide (a ∈ f) && decide (b ∈ f)) = 2 →
      ([[0, 1, 2], [0, 3, 1], [1, 3, 2], [0, 2, 3]] : List (List Nat)).countP (fun f => decide ((a, b) ∈ faceEdges f)) = 1) ∧
    (sharpEdges 4 [[0, 1, 2], [0, 3, 1], [1, 3, 2], [0, 2, 3]] fun _ _ => true).map List.length = some 6 := by
  have hbig : ∀ a b, 4 ≤ a ∨ 4 ≤ b → ([[0, 1, 2], [0, 3, 1], [1, 3, 2], [0, 2, 3]] : List (List Nat)).countP (fun f => decide (a ∈ f) && decide (b ∈ f)) = 0 := by
    intro a b hab
    rw [List.countP_eq_zero]
    intro f hf
    simp only [List.mem_cons, List.not_mem_nil, or_false] at hf
    rcases hf with rfl | rfl | rfl | rfl <;> simp <;> omega
  have hsmall : ∀ a, a < 4 → ∀ b, b < 4 → a ≠ b → ([[0, 1, 2], [0, 3, 1], [1, 3, 2], [0, 2, 3]] : List (List Nat)).countP (fun f => decide (a ∈ f) && decide (b ∈ f)) = 2 ∧
    ([[0, 1, 2], [0, 3, 1], [1, 3, 2], [0, 2, 3]] : List (List Nat)).countP (fun f => decide ((a, b) ∈ faceEdges f)) = 1 := by decide
  refine ⟨by unfold TriMesh; decide, by unfold SimpleFaces; decide, fun a b hab => ?_, fun a b hab hc => ?_, by decide⟩
  · by_cases hl : a < 4 ∧ b < 4
    · exact (hsmall a hl.1 b hl.2 hab).1.le
    · rw [hbig a b (by omega)]; omega
  · by_cases hl : a < 4 ∧ b < 4
    · exact (hsmall a hl.1 b hl.2 hab).2
    · rw [hbig a b (by omega)] at hc; omega

/-- **C61** fails where three faces meet at an edge: it is listed three times. -/
theorem C61_valence_three_false : ∃ es, sharpEdges 5 [[0, 1, 2], [1, 0, 3], [0, 1, 4]] (fun _ _ => true) = some es ∧ es.count (0, 1) = 3 := ⟨_, rfl, by decide⟩

/-- **C61** fails with inconsistent orientation: an edge with a sharp angle that both faces run through in descending direction is not listed, in ascending direction twice. -/
theorem C61_orientation_false : (∃ es, sharpEdges 4 [[1, 0, 2], [1, 0, 3]] (fun _ _ => true) = some es ∧ es.count (0, 1) = 0) ∧ ∃ es, sharpEdges 4 [[0, 1, 2], [0, 1, 3]] (fun _ _ => true) = some es ∧ es.count (0, 1) = 2 :=
  ⟨⟨_, rfl, by decide⟩, ⟨_, rfl, by decide⟩⟩

/-! ## C78 -/

theorem pairs_cons {n : Nat} {e : Nat × Nat} {es : List (Nat × Nat)} (h : ∀ x ∈ e :: es, x.1 < x.2 ∧ x.2 < n) : (e.1 < e.2 ∧ e.2 < n) ∧ ∀ x ∈ es, x.1 < x.2 ∧ x.2 < n :=
  ⟨h e (by simp), fun x hx => h x (by simp [hx])⟩

theorem countEnds_eq (n : Nat) (es : List (Nat × Nat)) : ∀ cnt, (∀ e ∈ es, e.1 < e.2 ∧ e.2 < n) → countEnds n es cnt = some fun p => cnt p + (es.map fun e => [e.1, e.2]).flatten.count p := by
  induction es with
  | nil => intro cnt _; simp [countEnds]
  | cons e es ih =>
    intro cnt h
    obtain ⟨h1, h2⟩ := pairs_cons h
    rw [countEnds, countCorners_eq n _ cnt (by simp; omega)]
    simp only
    rw [ih _ h2]
    congr 1; funext p
    rw [List.map_cons, List.flatten_cons, List.count_append]; omega

theorem fillEnds_eq (n : Nat) (es : List (Nat × Nat)) : ∀ k pe, (∀ e ∈ es, e.1 < e.2 ∧ e.2 < n) → (∀ p, (pe p).items.length + (es.map fun e => [e.1, e.2]).flatten.count p ≤ (pe p).cap) →
    fillEnds n k es pe = some fun p => { cap := (pe p).cap, items := (pe p).items ++ inc k (es.map fun e => [e.1, e.2]) p } := by
  induction es with
  | nil => intro k pe _ _; simp [fillEnds, inc]
  | cons e es ih =>
    intro k pe h hr
    obtain ⟨h1, h2⟩ := pairs_cons h
    have hr' : ∀ p, (pe p).items.length + (([e.1, e.2] : List Nat).count p + (es.map fun e => [e.1, e.2]).flatten.count p) ≤ (pe p).cap := by
      intro p; have := hr p; rw [List.map_cons, List.flatten_cons, List.count_append] at this; exact this
    rw [fillEnds, fillEnd, if_neg (by omega), fillCorners_eq n k _ pe (by simp; omega) (fun p => by have := hr' p; omega)]
    simp only
    rw [ih _ _ h2 (fun p => by have := hr' p; simp only [List.length_append, List.length_replicate]; omega)]
    simp [inc]

theorem endsAt_inc (es : List (Nat × Nat)) (p : Nat) : ∀ pre, (∀ e ∈ es, e.1 < e.2) → endsAt (pre ++ es) (inc pre.length (es.map fun e => [e.1, e.2]) p) = some (es.filter fun e => e.1 == p || e.2 == p) := by
  induction es with
  | nil => intro pre _; simp [inc, endsAt]
  | cons e es ih =>
    intro pre h
    have hi := ih (pre ++ [e]) fun x hx => h x (by simp [hx])
    rw [List.append_assoc, List.length_append, List.length_singleton, List.singleton_append] at hi
    have he := h e (by simp)
    rw [List.map_cons, inc]
    by_cases hp : e.1 = p ∨ e.2 = p
    · have hc : ([e.1, e.2] : List Nat).count p = 1 := by
        rcases hp with rfl | rfl
        · rw [List.count_cons_self, List.count_eq_zero.2 (by simp; omega)]
        · rw [List.count_cons_of_ne (by omega)]; simp
      rw [hc, List.replicate_one, List.singleton_append, endsAt, hi, List.getElem?_append_right (le_refl _), Nat.sub_self, List.filter_cons_of_pos (by simpa using hp)]
      rfl
    · have hc : ([e.1, e.2] : List Nat).count p = 0 := by rw [List.count_eq_zero]; simp; omega
      rw [hc, List.replicate_zero, List.nil_append, hi, List.filter_cons_of_neg (by simpa using hp)]

theorem recount_eq (l : List (Nat × Nat)) : ∀ seen, recount seen l = (l.toFinset \ seen.toFinset).card := by
  induction l with
  | nil => intro seen; simp [recount]
  | cons e l ih =>
    intro seen
    rw [recount, ih]
    split_ifs with he
    · rw [Nat.zero_add]
      congr 1
      ext x
      simp only [Finset.mem_sdiff, List.mem_toFinset, List.mem_append, List.mem_singleton, List.mem_cons]
      constructor
      · rintro ⟨h1, h2⟩; exact ⟨Or.inr h1, fun h => h2 (Or.inl h)⟩
      · rintro ⟨h1, h2⟩
        rcases h1 with rfl | h1
        · exact absurd he h2
        · refine ⟨h1, fun h => h.elim h2 fun h => ?_⟩
          rw [or_iff_left List.not_mem_nil] at h
          exact h2 (h ▸ he)
    · have : (e :: l).toFinset \ seen.toFinset = insert e (l.toFinset \ (seen ++ [e]).toFinset) := by
        ext x
        simp only [Finset.mem_sdiff, List.mem_toFinset, List.mem_append, List.mem_singleton, List.mem_cons, Finset.mem_insert]
        by_cases hx : x = e
        · subst hx; simp [he]
        · simp [hx]
      rw [this, Finset.card_insert_of_notMem (by simp)]
      omega

theorem firstNew_spec (l : List (Nat × Nat)) : ∀ seen, (∀ e, firstNew seen l = some e → e ∈ l ∧ e ∉ seen) ∧ (firstNew seen l = none → ∀ x ∈ l, x ∈ seen) := by
  induction l with
  | nil => intro seen; simp [firstNew]
  | cons a l ih =>
    intro seen
    rw [firstNew]
    split_ifs with ha
    · obtain ⟨h1, h2⟩ := ih (seen ++ [a])
      refine ⟨fun e he => ?_, fun h x hx => ?_⟩
      · obtain ⟨g1, g2⟩ := h1 e he
        exact ⟨by simp [g1], fun h => g2 (by simp [h])⟩
      · rcases List.mem_cons.1 hx with rfl | hx
        · exact ha
        · have := h2 h x hx
          simp only [List.mem_append, List.mem_singleton] at this
          rcases this with g | g
          · exact g
          · rw [g]; exact ha
    · refine ⟨fun e he => ?_, by simp⟩
      obtain rfl := Option.some.inj he
      exact ⟨by simp, ha⟩

/-- The points joined to `p` by a listed edge. -/
def sharpNbrs (es : List (Nat × Nat)) (p : Nat) : Set Nat := {q | (p, q) ∈ es ∨ (q, p) ∈ es}

/-- `p` is a corner: one sharp edge ends there or three or more meet, or two that enclose a sharp angle. -/
def CornerSpec (es : List (Nat × Nat)) (bend : Nat → Nat → Nat → Bool) (p : Nat) : Prop :=
  (sharpNbrs es p).ncard = 1 ∨ 3 ≤ (sharpNbrs es p).ncard ∨ ∃ a b, a ≠ b ∧ sharpNbrs es p = {a, b} ∧ bend a p b = true

theorem nbrs_eq {es : List (Nat × Nat)} (h : ∀ e ∈ es, e.1 < e.2) (p : Nat) : sharpNbrs es p = ↑((es.filter fun e => e.1 == p || e.2 == p).toFinset.image (otherEnd p)) := by
  ext q
  simp only [sharpNbrs, Set.mem_ofPred_eq, Finset.coe_image, Set.mem_image, Finset.mem_coe, List.mem_toFinset, List.mem_filter, Bool.or_eq_true, beq_iff_eq]
  constructor
  · rintro (hm | hm)
    · refine ⟨_, ⟨hm, Or.inl rfl⟩, ?_⟩; simp [otherEnd]
    · have := h _ hm
      simp only at this
      refine ⟨_, ⟨hm, Or.inr rfl⟩, ?_⟩
      unfold otherEnd
      rw [if_pos (by simp only; omega)]
  · rintro ⟨⟨a, b⟩, ⟨hm, hp⟩, rfl⟩
    simp only at hp
    unfold otherEnd
    simp only
    split_ifs with ha
    · rcases hp with rfl | rfl
      · exact absurd rfl ha
      · exact Or.inr hm
    · rw [not_not] at ha; subst ha; exact Or.inl hm

theorem otherEnd_inj {es : List (Nat × Nat)} (h : ∀ e ∈ es, e.1 < e.2) (p : Nat) : Set.InjOn (otherEnd p) ((es.filter fun e => e.1 == p || e.2 == p).toFinset : Set (Nat × Nat)) := by
  rintro ⟨a, b⟩ h1 ⟨c, d⟩ h2 he
  simp only [Finset.mem_coe, List.mem_toFinset, List.mem_filter, Bool.or_eq_true, beq_iff_eq] at h1 h2
  have e1 := h _ h1.1
  have e2 := h _ h2.1
  simp only at e1 e2
  unfold otherEnd at he
  simp only at he
  rw [Prod.mk.injEq]
  split_ifs at he <;> omega

theorem isCorner_spec {es : List (Nat × Nat)} (h : ∀ e ∈ es, e.1 < e.2) {bend : Nat → Nat → Nat → Bool} (hsym : ∀ a p b, bend a p b = bend b p a) (p : Nat) {b : FaceBuf}
    (hb : endsAt es b.items = some (es.filter fun e => e.1 == p || e.2 == p)) : ∃ r, isCorner es bend p b = some r ∧ (r = true ↔ CornerSpec es bend p) := by
  unfold isCorner
  rw [hb]
  simp only
  have hcard : (sharpNbrs es p).ncard = recount [] (es.filter fun e => e.1 == p || e.2 == p) := by
    rw [nbrs_eq h, Set.ncard_coe_finset, Finset.card_image_of_injOn (otherEnd_inj h p), recount_eq]
    simp
  generalize hl : (es.filter fun e => e.1 == p || e.2 == p) = l at *
  rw [← hcard]
  by_cases h2 : (sharpNbrs es p).ncard = 2
  · rw [if_neg (by omega), if_pos h2]
    rw [recount_eq] at hcard
    simp only [List.toFinset_nil, Finset.sdiff_empty] at hcard
    cases l with
    | nil => simp at hcard; omega
    | cons e l =>
      unfold cornerOfTwo
      obtain ⟨f1, f2⟩ := firstNew_spec l [e]
      cases hf : firstNew [e] l with
      | none =>
        exfalso
        have := f2 hf
        have hle : (e :: l).toFinset ⊆ {e} := by
          intro x hx
          simp only [List.mem_toFinset, List.mem_cons] at hx
          rcases hx with rfl | hx
          · simp
          · simpa using this x hx
        have := Finset.card_le_card hle
        rw [Finset.card_singleton] at this
        omega
      | some e' =>
        obtain ⟨g1, g2⟩ := f1 e' hf
        simp only [List.mem_singleton] at g2
        simp only [hf]
        refine ⟨_, rfl, ?_⟩
        have hset : (e :: l).toFinset = {e, e'} := by
          symm
          apply Finset.eq_of_subset_of_card_le
          · intro x hx
            simp only [Finset.mem_insert, Finset.mem_singleton] at hx
            simp only [List.mem_toFinset, List.mem_cons]
            rcases hx with rfl | rfl
            · exact Or.inl rfl
            · exact Or.inr g1
          · rw [Finset.card_pair (Ne.symm g2), ← hcard, h2]
        have hn : sharpNbrs es p = {otherEnd p e, otherEnd p e'} := by
          rw [nbrs_eq h, hl, hset, Finset.image_insert, Finset.image_singleton]
          simp
        have hne : otherEnd p e ≠ otherEnd p e' := by
          intro he
          rw [hn, he] at h2
          simp at h2
        constructor
        · intro hr; exact Or.inr (Or.inr ⟨_, _, hne, hn, hr⟩)
        · rintro (g | g | ⟨a, b, hab, hs, hr⟩)
          · omega
          · omega
          · rw [hn] at hs
            rcases Set.pair_eq_pair_iff.1 hs with ⟨rfl, rfl⟩ | ⟨rfl, rfl⟩
            · exact hr
            · rw [hsym]; exact hr
  · have h3 : ¬ ∃ a b, a ≠ b ∧ sharpNbrs es p = {a, b} ∧ bend a p b = true := by
      rintro ⟨a, b, hab, hs, -⟩
      rw [hs, Set.ncard_pair hab] at h2
      exact h2 rfl
    by_cases h0 : (sharpNbrs es p).ncard = 0
    · rw [if_neg (by omega), if_neg h2]
      refine ⟨false, rfl, iff_of_false (by simp) ?_⟩
      rintro (g | g | g)
      · omega
      · omega
      · exact h3 g
    · rw [if_pos (by omega)]
      refine ⟨true, rfl, iff_of_true rfl ?_⟩
      by_cases h1 : (sharpNbrs es p).ncard = 1
      · exact Or.inl h1
      · exact Or.inr (Or.inl (by omega))

theorem sharpCornerLoop_spec {es : List (Nat × Nat)} {bend : Nat → Nat → Nat → Bool} {pe : Nat → FaceBuf} (h : ∀ p, ∃ r, isCorner es bend p (pe p) = some r ∧ (r = true ↔ CornerSpec es bend p)) (n : Nat) :
    ∃ l, sharpCornerLoop es bend pe n = some l ∧ l.Pairwise (· < ·) ∧ ∀ p, p ∈ l ↔ p < n ∧ CornerSpec es bend p := by
  induction n with
  | zero => exact ⟨[], rfl, List.Pairwise.nil, by simp⟩
  | succ n ih =>
    obtain ⟨l, e, h1, h2⟩ := ih
    obtain ⟨r, er, hr⟩ := h n
    rw [sharpCornerLoop, e, er]
    cases r with
    | true =>
      refine ⟨l ++ [n], rfl, List.pairwise_append.2 ⟨h1, by simp, fun a ha b hb => ?_⟩, fun p => ?_⟩
      · have := (h2 a).1 ha; simp only [List.mem_singleton] at hb; omega
      · simp only [List.mem_append, List.mem_singleton, h2]
        constructor
        · rintro (g | rfl)
          · exact ⟨by omega, g.2⟩
          · exact ⟨by omega, hr.1 rfl⟩
        · rintro ⟨g1, g2⟩
          by_cases hp : p = n
          · exact Or.inr hp
          · exact Or.inl ⟨by omega, g2⟩
    | false =>
      refine ⟨l, rfl, h1, fun p => ?_⟩
      rw [h2]
      constructor
      · rintro ⟨g1, g2⟩; exact ⟨by omega, g2⟩
      · rintro ⟨g1, g2⟩
        by_cases hp : p = n
        · subst hp; exact absurd (hr.2 g2) (by simp)
        · exact ⟨by omega, g2⟩

/-- **C78**: for every table of sharp edges, with repetitions or not, the sharp corners are found without undefined behaviour, each once and in ascending order: exactly the points where one sharp edge ends, where three or more
different ones meet, or where two enclose a sharp angle. -/
theorem C78_corners (n : Nat) (es : List (Nat × Nat)) (h : ∀ e ∈ es, e.1 < e.2 ∧ e.2 < n) (bend : Nat → Nat → Nat → Bool) (hsym : ∀ a p b, bend a p b = bend b p a) :
    ∃ l, sharpCorners n es bend = some l ∧ l.Pairwise (· < ·) ∧ ∀ p, p ∈ l ↔ p < n ∧ CornerSpec es bend p := by
  unfold sharpCorners pointEdges
  rw [countEnds_eq n es _ h]
  simp only
  rw [fillEnds_eq n es 0 _ h (by simp)]
  simp only
  refine sharpCornerLoop_spec (fun p => isCorner_spec (fun e he => (h e he).1) hsym p ?_) n
  have := endsAt_inc es p [] fun e he => (h e he).1
  simpa using this

/-- The test of the code is symmetric. -/
theorem bendSharp_symm (th : ℝ) (x : Nat → V3) (a p b : Nat) : bendSharp th x a p b = bendSharp th x b p a := by
  have hflip : ∀ u v : V3, dot3 (u - v) (u - v) = dot3 (v - u) (v - u) := by intro u v; simp only [dot3, Pi.sub_apply]; ring
  have hc : ∀ u v w : V3, cosAngle u v w = cosAngle w v u := by
    intro u v w
    unfold cosAngle
    rw [hflip v w, hflip v u, show dot3 (w - v) (u - v) = dot3 (u - v) (w - v) by simp only [dot3]; ring, mul_comm (Real.sqrt (dot3 (w - v) (w - v)))]
    simp only [or_comm]
  unfold bendSharp
  rw [hc]

/-- **C78** for the whole detection: from a triangle mesh without repeated corners, edges and corners come out, and the corners are those of the edges listed. -/
theorem C78_from_mesh (n : Nat) (faces : List (List Nat)) (h : TriMesh n faces) (hs : SimpleFaces faces) (sharp : Nat → Nat → Bool) (th : ℝ) (x : Nat → V3) :
    ∃ es l, sharpEdges n faces sharp = some es ∧ sharpCorners n es (bendSharp th x) = some l ∧ l.Pairwise (· < ·) ∧ ∀ p, p ∈ l ↔ p < n ∧ CornerSpec es (bendSharp th x) p := by
  obtain ⟨es, e, h1, -⟩ := C61_multiplicity n faces h hs sharp
  obtain ⟨l, e', h2, h3⟩ := C78_corners n es h1 (bendSharp th x) (bendSharp_symm th x)
  exact ⟨es, l, e, e', h2, h3⟩

/-- All four points of a sharp tetrahedron are corners; of the boundary of a square of two triangles, the bent ones. -/
example : (sharpEdges 4 [[0, 1, 2], [0, 3, 1], [1, 3, 2], [0, 2, 3]] fun _ _ => true).bind (fun es => sharpCorners 4 es fun _ _ _ => false) = some [0, 1, 2, 3] ∧
    (sharpEdges 4 [[0, 1, 2], [0, 2, 3]] fun _ _ => false).bind (fun es => sharpCorners 4 es fun _ p _ => p == 1 || p == 2) = some [1, 2] := by decide

end VoroCrust
