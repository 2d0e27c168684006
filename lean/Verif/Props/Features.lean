import Verif.Model.Features
import Verif.Props.Sharp

/-! # Sharp features of an input mesh (C121, C122) -/

namespace VoroCrust

open Classical

/-! ## C121: edges -/

/-- The directed edge at place `i` of a triangle. -/
def edgeAt (f : List Nat) (i : Nat) : Nat × Nat := (f.getD i 0, f.getD ((i + 1) % 3) 0)

theorem edgeAt_tri (a b c : Nat) : edgeAt [a, b, c] 0 = (a, b) ∧ edgeAt [a, b, c] 1 = (b, c) ∧ edgeAt [a, b, c] 2 = (c, a) := ⟨rfl, rfl, rfl⟩

theorem lt_three {i : Nat} (h : i < 3) : i = 0 ∨ i = 1 ∨ i = 2 := by omega

/-- Two places of a triangle with the same edge, in either direction, are the same. -/
theorem edgeAt_inj {f : List Nat} (h3 : f.length = 3) (hn : f.Nodup) {i j : Nat} (hi : i < 3) (hj : j < 3) (h : edgeAt f i = edgeAt f j ∨ edgeAt f i = ((edgeAt f j).2, (edgeAt f j).1)) : i = j := by
  obtain ⟨a, b, c, rfl⟩ := tri_eq h3
  simp only [List.nodup_cons, List.mem_cons, List.not_mem_nil, or_false, not_or] at hn
  obtain ⟨e0, e1, e2⟩ := edgeAt_tri a b c
  rcases lt_three hi with rfl | rfl | rfl <;> rcases lt_three hj with rfl | rfl | rfl <;> simp only [e0, e1, e2, Prod.mk.injEq] at h <;> first | rfl | (exfalso; omega)

theorem edgeAt_mem {f : List Nat} (h3 : f.length = 3) (hn : f.Nodup) {i : Nat} (hi : i < 3) : (edgeAt f i).1 ∈ f ∧ (edgeAt f i).2 ∈ f ∧ (edgeAt f i).1 ≠ (edgeAt f i).2 := by
  obtain ⟨a, b, c, rfl⟩ := tri_eq h3
  simp only [List.nodup_cons, List.mem_cons, List.not_mem_nil, or_false, not_or] at hn
  obtain ⟨e0, e1, e2⟩ := edgeAt_tri a b c
  rcases lt_three hi with rfl | rfl | rfl <;> simp only [e0, e1, e2] <;> refine ⟨by simp, by simp, by omega⟩

theorem exists_edgeAt {f : List Nat} (h3 : f.length = 3) {a b : Nat} (ha : a ∈ f) (hb : b ∈ f) (hab : a ≠ b) : ∃ i, i < 3 ∧ (edgeAt f i = (a, b) ∨ edgeAt f i = (b, a)) := by
  obtain ⟨x, y, z, rfl⟩ := tri_eq h3
  obtain ⟨e0, e1, e2⟩ := edgeAt_tri x y z
  simp only [List.mem_cons, List.not_mem_nil, or_false] at ha hb
  rcases ha with rfl | rfl | rfl <;> rcases hb with rfl | rfl | rfl
  · exact absurd rfl hab
  · exact ⟨0, by omega, Or.inl e0⟩
  · exact ⟨2, by omega, Or.inr e2⟩
  · exact ⟨0, by omega, Or.inr e0⟩
  · exact absurd rfl hab
  · exact ⟨1, by omega, Or.inl e1⟩
  · exact ⟨2, by omega, Or.inl e2⟩
  · exact ⟨1, by omega, Or.inr e1⟩
  · exact absurd rfl hab

/-- Two faces run along the edge `a b` in the same direction, and it has the same place in both lists of corners. -/
def SameSpot (faces : List (List Nat)) (fi fj a b : Nat) : Prop :=
  ∃ i, i < 3 ∧ edgeAt (faces.getD fi []) i = edgeAt (faces.getD fj []) i ∧ (edgeAt (faces.getD fi []) i = (a, b) ∨ edgeAt (faces.getD fi []) i = (b, a))

/-- The edge `a b` of a mesh is sharp: not two faces share it, or two with a sharp angle. -/
def SharpAt (faces : List (List Nat)) (sharp : Nat → Nat → Bool → Bool) (a b : Nat) : Prop :=
  sharedBy faces a b ≠ 0 ∧ (sharedBy faces a b ≠ 2 ∨ ∃ fi fj, facesWith faces a b = [fi, fj] ∧ sharp fi fj (decide (SameSpot faces fi fj a b)) = true)

/-- What one edge adds to the table. -/
noncomputable def featEmit (faces : List (List Nat)) (sharp : Nat → Nat → Bool → Bool) (k i : Nat) (e : Nat × Nat) : List (Nat × Nat) :=
  if (facesWith faces e.1 e.2).head? ≠ some k then []
  else if sharedBy faces e.1 e.2 ≠ 2 then [e]
  else
    match facesWith faces e.1 e.2 with
    | fi :: fj :: _ => if sharp fi fj (decide (edgeAt (faces.getD fj []) i = e)) then [e] else []
    | _ => []

theorem facesWith_comm (faces : List (List Nat)) (a b : Nat) : facesWith faces a b = facesWith faces b a := by
  unfold facesWith
  congr 1
  funext k
  rw [Bool.and_comm]

theorem mem_facesWith {faces : List (List Nat)} {a b k : Nat} : k ∈ facesWith faces a b ↔ k < faces.length ∧ a ∈ faces.getD k [] ∧ b ∈ faces.getD k [] := by
  unfold facesWith
  rw [List.mem_filter, List.mem_range]
  simp

theorem facesWith_sorted (faces : List (List Nat)) (a b : Nat) : (facesWith faces a b).Pairwise (· < ·) := by
  unfold facesWith
  exact List.Pairwise.filter _ List.pairwise_lt_range

theorem minFace_le (m : Nat) (ks : List Nat) (h : ∀ k ∈ ks, m ≤ k) : minFace m ks = m := by
  induction ks with
  | nil => rfl
  | cons k ks ih =>
    rw [minFace, if_neg (by have := h k (by simp); omega)]
    exact ih fun x hx => h x (by simp [hx])

theorem minFace_head {m k : Nat} {ks : List Nat} (hk : k < m) (h : (k :: ks).Pairwise (· < ·)) : minFace m (k :: ks) = k := by
  rw [minFace, if_pos hk]
  exact minFace_le k ks fun x hx => Nat.le_of_lt ((List.pairwise_cons.1 h).1 x hx)

theorem reversedAt_eq {n : Nat} {faces : List (List Nat)} (h : TriMesh n faces) {fj i : Nat} (hf : fj < faces.length) (hi : i < 3) (e : Nat × Nat) :
    reversedAt faces fj i e = some (decide (edgeAt (faces.getD fj []) i = e)) := by
  have hg : faces[fj]? = some (faces.getD fj []) := by simp [List.getD, List.getElem?_eq_getElem hf]
  obtain ⟨a, b, c, ef⟩ := tri_eq (h _ (getD_mem hf)).1
  unfold reversedAt
  rw [hg, ef]
  obtain ⟨x, y⟩ := e
  rcases lt_three hi with rfl | rfl | rfl <;> simp [edgeAt]

theorem featureEdge_eq {n : Nat} {faces : List (List Nat)} {pf : Nat → FaceBuf} (h : TriMesh n faces) (hs : SimpleFaces faces) (hb : buildPointFaces n faces = some pf) (sharp : Nat → Nat → Bool → Bool) {e : Nat × Nat}
    (h1 : e.1 < n) (h2 : e.1 ≠ e.2) (h0 : sharedBy faces e.1 e.2 ≠ 0) (k : Nat) {i : Nat} (hi : i < 3) : featureEdge n faces pf sharp k i e = some (featEmit faces sharp k i e) := by
  have hl := facesWith_length faces e.1 e.2
  have hso := facesWith_sorted faces e.1 e.2
  have hm : ∀ x ∈ facesWith faces e.1 e.2, x < faces.length := fun x hx => (mem_facesWith.1 hx).1
  unfold featureEdge featEmit
  rw [numEdgeFaces_simple h hs hb h1 h2, edgeFaces_simple h hs hb h1 h2]
  dsimp only
  generalize facesWith faces e.1 e.2 = L at hl hso hm ⊢
  rw [if_neg (by omega), List.take_of_length_le (by omega)]
  cases L with
  | nil => simp at hl; omega
  | cons f0 L =>
    rw [minFace_head (hm f0 (by simp)) hso, List.head?_cons]
    by_cases hk : f0 = k
    · subst hk
      have a1 : ¬ (f0 ≠ f0) := not_not.2 rfl
      have a2 : ¬ (some f0 ≠ some f0) := not_not.2 rfl
      rw [if_neg a1, if_neg a2]
      by_cases hc : sharedBy faces e.1 e.2 = 2
      · rw [if_neg (by simpa using hc), if_neg (by simpa using hc)]
        cases L with
        | nil => simp at hl; omega
        | cons f1 L =>
          dsimp only
          rw [reversedAt_eq h (hm f1 (by simp)) hi]
      · rw [if_pos hc, if_pos hc]
    · rw [if_pos hk, if_pos (by simpa using hk)]

/-- The whole table. -/
noncomputable def featTable (faces : List (List Nat)) (sharp : Nat → Nat → Bool → Bool) (k : Nat) : List (Nat × Nat) := [0, 1, 2].flatMap fun i => featEmit faces sharp k i (edgeAt (faces.getD k []) i)

theorem edge_shared {faces : List (List Nat)} {n : Nat} (h : TriMesh n faces) (hs : SimpleFaces faces) {k i : Nat} (hk : k < faces.length) (hi : i < 3) :
    (edgeAt (faces.getD k []) i).1 < n ∧ (edgeAt (faces.getD k []) i).2 < n ∧ (edgeAt (faces.getD k []) i).1 ≠ (edgeAt (faces.getD k []) i).2 ∧
    sharedBy faces (edgeAt (faces.getD k []) i).1 (edgeAt (faces.getD k []) i).2 ≠ 0 := by
  obtain ⟨g1, g2, g3⟩ := edgeAt_mem (h _ (getD_mem hk)).1 (hs _ (getD_mem hk)) hi
  exact ⟨(h _ (getD_mem hk)).2 _ g1, (h _ (getD_mem hk)).2 _ g2, g3, sharedBy_pos (getD_mem hk) g1 g2⟩

theorem featureFace_eq {n : Nat} {faces : List (List Nat)} {pf : Nat → FaceBuf} (h : TriMesh n faces) (hs : SimpleFaces faces) (hb : buildPointFaces n faces = some pf) (sharp : Nat → Nat → Bool → Bool)
    {k : Nat} (hk : k < faces.length) : featureFace n faces pf sharp k (faces.getD k []) = some (featTable faces sharp k) := by
  have q : ∀ i, i < 3 → featureEdge n faces pf sharp k i (edgeAt (faces.getD k []) i) = some (featEmit faces sharp k i (edgeAt (faces.getD k []) i)) := by
    intro i hi
    obtain ⟨g1, -, g2, g3⟩ := edge_shared h hs hk hi
    exact featureEdge_eq h hs hb sharp g1 g2 g3 k hi
  have q0 := q 0 (by omega)
  have q1 := q 1 (by omega)
  have q2 := q 2 (by omega)
  unfold featTable
  obtain ⟨a, b, c, ef⟩ := tri_eq (h _ (getD_mem hk)).1
  rw [ef] at q0 q1 q2 ⊢
  obtain ⟨e0, e1, e2⟩ := edgeAt_tri a b c
  rw [e0] at q0
  rw [e1] at q1
  rw [e2] at q2
  simp only [featureFace, q0, q1, q2, List.flatMap_cons, List.flatMap_nil, e0, e1, e2, List.append_nil]

theorem featureFaces_eq {n : Nat} {faces : List (List Nat)} {pf : Nat → FaceBuf} (h : TriMesh n faces) (hs : SimpleFaces faces) (hb : buildPointFaces n faces = some pf) (sharp : Nat → Nat → Bool → Bool)
    (m k : Nat) (hm : k + m = faces.length) : featureFaces n faces pf sharp k (faces.drop k) = some ((List.range' k m).flatMap (featTable faces sharp)) := by
  induction m generalizing k with
  | zero => rw [List.drop_of_length_le (by omega)]; rfl
  | succ m ih =>
    have hk : k < faces.length := by omega
    have hg : faces[k] = faces.getD k [] := by simp [List.getD, List.getElem?_eq_getElem hk]
    rw [List.drop_eq_getElem_cons hk, featureFaces, ih (k + 1) (by omega), hg, featureFace_eq h hs hb sharp hk, List.range'_succ, List.flatMap_cons]

theorem featureEdges_eq {n : Nat} {faces : List (List Nat)} {pf : Nat → FaceBuf} (h : TriMesh n faces) (hs : SimpleFaces faces) (hb : buildPointFaces n faces = some pf) (sharp : Nat → Nat → Bool → Bool) :
    featureEdges n faces pf sharp = some ((List.range faces.length).flatMap (featTable faces sharp)) := by
  have := featureFaces_eq h hs hb sharp faces.length 0 (by omega)
  rw [List.drop_zero, ← List.range_eq_range'] at this
  exact this

theorem featEmit_cases (faces : List (List Nat)) (sharp : Nat → Nat → Bool → Bool) (k i : Nat) (e : Nat × Nat) : featEmit faces sharp k i e = [] ∨ featEmit faces sharp k i e = [e] := by
  unfold featEmit
  split_ifs
  · exact Or.inl rfl
  · exact Or.inr rfl
  · split
    · split_ifs
      · exact Or.inr rfl
      · exact Or.inl rfl
    · exact Or.inl rfl

theorem mem_featEmit {faces : List (List Nat)} {sharp : Nat → Nat → Bool → Bool} {k i : Nat} {e x : Nat × Nat} : x ∈ featEmit faces sharp k i e ↔ x = e ∧ (facesWith faces e.1 e.2).head? = some k ∧
    (sharedBy faces e.1 e.2 ≠ 2 ∨ ∃ fi fj, facesWith faces e.1 e.2 = [fi, fj] ∧ sharp fi fj (decide (edgeAt (faces.getD fj []) i = e)) = true) := by
  unfold featEmit
  by_cases h1 : (facesWith faces e.1 e.2).head? = some k
  · rw [if_neg (by simpa using h1)]
    by_cases h2 : sharedBy faces e.1 e.2 = 2
    · rw [if_neg (by simpa using h2)]
      obtain ⟨fi, fj, ef⟩ := two_faces h2
      rw [ef] at h1 ⊢
      dsimp only
      by_cases h3 : sharp fi fj (decide (edgeAt (faces.getD fj []) i = e)) = true
      · rw [if_pos h3, List.mem_singleton]
        exact ⟨fun hx => ⟨hx, h1, Or.inr ⟨fi, fj, rfl, h3⟩⟩, fun hx => hx.1⟩
      · rw [if_neg h3]
        constructor
        · intro hx; simp at hx
        · rintro ⟨-, -, h4 | ⟨gi, gj, h4, h5⟩⟩
          · exact absurd h2 h4
          · simp only [List.cons.injEq, and_true] at h4
            obtain ⟨rfl, rfl⟩ := h4
            exact absurd h5 h3
    · rw [if_pos h2, List.mem_singleton]
      exact ⟨fun hx => ⟨hx, h1, Or.inl h2⟩, fun hx => hx.1⟩
  · rw [if_pos h1]
    constructor
    · intro hx; simp at hx
    · rintro ⟨-, h2, -⟩; exact absurd h2 h1

theorem mem_featTable {faces : List (List Nat)} {sharp : Nat → Nat → Bool → Bool} {k : Nat} {x : Nat × Nat} : x ∈ featTable faces sharp k ↔ ∃ i, i < 3 ∧ x ∈ featEmit faces sharp k i (edgeAt (faces.getD k []) i) := by
  unfold featTable
  rw [List.mem_flatMap]
  constructor
  · rintro ⟨i, hi, hx⟩
    refine ⟨i, ?_, hx⟩
    simp at hi; omega
  · rintro ⟨i, hi, hx⟩
    refine ⟨i, ?_, hx⟩
    simp; omega

/-- Same edge, in either direction. -/
def SameEdge (e x : Nat × Nat) : Prop := e = x ∨ e = (x.2, x.1)

theorem SameEdge.faces {e x : Nat × Nat} (h : SameEdge e x) (faces : List (List Nat)) : facesWith faces e.1 e.2 = facesWith faces x.1 x.2 := by
  rcases h with rfl | rfl
  · rfl
  · exact facesWith_comm faces x.2 x.1

/-- **C121, edges.** For every triangle mesh without repeated corners the sharp edges are found without undefined behaviour, each once, in one of its directions: exactly the edges that are not shared by two faces
and those between two faces with a sharp angle. -/
theorem C121_edges (n : Nat) (faces : List (List Nat)) (h : TriMesh n faces) (hs : SimpleFaces faces) (sharp : Nat → Nat → Bool → Bool) (pf : Nat → FaceBuf) (hb : buildPointFaces n faces = some pf) :
    ∃ es, featureEdges n faces pf sharp = some es ∧ es.Pairwise (fun e x => ¬ SameEdge e x) ∧ (∀ e ∈ es, e.1 ≠ e.2 ∧ e.1 < n ∧ e.2 < n) ∧
    ∀ a b, a ≠ b → ((a, b) ∈ es ∨ (b, a) ∈ es ↔ SharpAt faces sharp a b) := by
  refine ⟨_, featureEdges_eq h hs hb sharp, ?_, ?_, ?_⟩
  · rw [List.pairwise_flatMap]
    constructor
    · intro k hk
      have hk := List.mem_range.1 hk
      unfold featTable
      rw [List.pairwise_flatMap]
      constructor
      · intro i _
        rcases featEmit_cases faces sharp k i (edgeAt (faces.getD k []) i) with e | e <;> rw [e] <;> simp
      · have : ([0, 1, 2] : List Nat).Pairwise fun i j => i < 3 ∧ j < 3 ∧ i ≠ j := by decide
        refine this.imp fun {i j} ⟨hi, hj, hij⟩ x hx y hy hxy => hij ?_
        rw [mem_featEmit] at hx hy
        rw [hx.1, hy.1] at hxy
        exact edgeAt_inj (h _ (getD_mem hk)).1 (hs _ (getD_mem hk)) hi hj hxy
    · refine (List.pairwise_lt_range).imp fun {k l} hkl x hx y hy hxy => ?_
      obtain ⟨i, -, hx⟩ := mem_featTable.1 hx
      obtain ⟨j, -, hy⟩ := mem_featTable.1 hy
      obtain ⟨ex, hx, -⟩ := mem_featEmit.1 hx
      obtain ⟨ey, hy, -⟩ := mem_featEmit.1 hy
      rw [← ex] at hx
      rw [← ey] at hy
      rw [hxy.faces faces, hy] at hx
      have := Option.some.inj hx
      omega
  · intro e he
    obtain ⟨k, hk, he⟩ := List.mem_flatMap.1 he
    obtain ⟨i, hi, he⟩ := mem_featTable.1 he
    obtain ⟨ee, -, -⟩ := mem_featEmit.1 he
    obtain ⟨g1, g2, g3, -⟩ := edge_shared h hs (List.mem_range.1 hk) hi
    rw [ee]
    exact ⟨g3, g1, g2⟩
  · have key : ∀ a b x, a ≠ b → SameEdge x (a, b) → (∀ k i, k < faces.length → i < 3 → SameEdge (edgeAt (faces.getD k []) i) (a, b) → (facesWith faces a b).head? = some k →
        ∀ fi fj, facesWith faces a b = [fi, fj] → (edgeAt (faces.getD fj []) i = edgeAt (faces.getD k []) i ↔ SameSpot faces fi fj a b)) := by
      intro a b x hab _ k i hk hi hse hh fi fj ef
      rw [ef] at hh
      obtain rfl : fi = k := by simpa using hh
      constructor
      · intro hee
        exact ⟨i, hi, hee.symm, hse⟩
      · rintro ⟨j, hj, g1, g2⟩
        have : j = i := by
          apply edgeAt_inj (h _ (getD_mem hk)).1 (hs _ (getD_mem hk)) hj hi
          rcases g2 with g2 | g2 <;> rcases hse with hse | hse <;> rw [g2, hse] <;> simp
        subst this
        exact g1.symm
    intro a b hab
    constructor
    · intro hm
      have hm : ∃ x ∈ (List.range faces.length).flatMap (featTable faces sharp), SameEdge x (a, b) := by
        rcases hm with hm | hm
        · exact ⟨_, hm, Or.inl rfl⟩
        · exact ⟨_, hm, Or.inr rfl⟩
      obtain ⟨x, hx, hxe⟩ := hm
      obtain ⟨k, hk, hx⟩ := List.mem_flatMap.1 hx
      have hk := List.mem_range.1 hk
      obtain ⟨i, hi, hx⟩ := mem_featTable.1 hx
      obtain ⟨ex, hh, hd⟩ := mem_featEmit.1 hx
      rw [← ex] at hh hd
      have hcnt : sharedBy faces x.1 x.2 = sharedBy faces a b := by rw [← facesWith_length, ← facesWith_length, hxe.faces faces]
      rw [hxe.faces faces] at hh hd
      rw [hcnt] at hd
      have hse : SameEdge (edgeAt (faces.getD k []) i) (a, b) := ex ▸ hxe
      refine ⟨?_, ?_⟩
      · have := (edge_shared h hs hk hi).2.2.2
        rw [← ex, hcnt] at this
        exact this
      · rcases hd with hd | ⟨fi, fj, hd, hs'⟩
        · exact Or.inl hd
        · refine Or.inr ⟨fi, fj, hd, ?_⟩
          rw [ex] at hs'
          rwa [decide_eq_decide.2 (key a b x hab hxe k i hk hi hse hh fi fj hd)] at hs'
    · rintro ⟨h0, hd⟩
      have hl := facesWith_length faces a b
      obtain ⟨k, L, eL⟩ : ∃ k L, facesWith faces a b = k :: L := by
        cases e : facesWith faces a b with
        | nil => rw [e] at hl; simp at hl; omega
        | cons k L => exact ⟨k, L, rfl⟩
      obtain ⟨hk, ha, hb'⟩ := mem_facesWith.1 (eL ▸ List.mem_cons_self : k ∈ facesWith faces a b)
      obtain ⟨i, hi, hse⟩ := exists_edgeAt (h _ (getD_mem hk)).1 ha hb' hab
      have hse : SameEdge (edgeAt (faces.getD k []) i) (a, b) := hse
      have hh : (facesWith faces a b).head? = some k := by rw [eL]; rfl
      have hcnt : sharedBy faces (edgeAt (faces.getD k []) i).1 (edgeAt (faces.getD k []) i).2 = sharedBy faces a b := by rw [← facesWith_length, ← facesWith_length, hse.faces faces]
      have hm : edgeAt (faces.getD k []) i ∈ (List.range faces.length).flatMap (featTable faces sharp) := by
        refine List.mem_flatMap.2 ⟨k, List.mem_range.2 hk, mem_featTable.2 ⟨i, hi, mem_featEmit.2 ⟨rfl, ?_, ?_⟩⟩⟩
        · rw [hse.faces faces]; exact hh
        · rw [hcnt, hse.faces faces]
          rcases hd with hd | ⟨fi, fj, hd, hs'⟩
          · exact Or.inl hd
          · refine Or.inr ⟨fi, fj, hd, ?_⟩
            rwa [decide_eq_decide.2 (key a b _ hab hse k i hk hi hse hh fi fj hd)]
      rcases hse with e | e <;> rw [e] at hm
      · exact Or.inl hm
      · exact Or.inr hm

/-- **C121, consistent orientation.** If no two faces run along an edge in the same direction, the sign of the angle is not changed: an edge between two faces is sharp if their normals say so. -/
theorem C121_oriented_partial (n : Nat) (faces : List (List Nat)) (h : TriMesh n faces) (hs : SimpleFaces faces) (th : ℝ) (normal : Nat → V3) (pf : Nat → FaceBuf) (hb : buildPointFaces n faces = some pf)
    (ho : ∀ k l i j, k < faces.length → l < faces.length → i < 3 → j < 3 → edgeAt (faces.getD k []) i = edgeAt (faces.getD l []) j → k = l) :
    ∃ es, featureEdges n faces pf (creaseSharp th normal) = some es ∧ ∀ a b fi fj, a ≠ b → facesWith faces a b = [fi, fj] → ((a, b) ∈ es ∨ (b, a) ∈ es ↔ dot3 (normal fi) (normal fj) < th) := by
  obtain ⟨es, e1, -, -, e2⟩ := C121_edges n faces h hs (creaseSharp th normal) pf hb
  refine ⟨es, e1, fun a b fi fj hab hf => ?_⟩
  rw [e2 a b hab]
  have hc : sharedBy faces a b = 2 := by rw [← facesWith_length, hf]; rfl
  have hlt : fi < fj := by
    have := facesWith_sorted faces a b
    rw [hf] at this
    simpa using this
  have hns : ¬ SameSpot faces fi fj a b := by
    rintro ⟨i, hi, g, -⟩
    have m1 : fi ∈ facesWith faces a b := by rw [hf]; simp
    have m2 : fj ∈ facesWith faces a b := by rw [hf]; simp
    have := ho fi fj i i (mem_facesWith.1 m1).1 (mem_facesWith.1 m2).1 hi hi g
    omega
  unfold SharpAt
  rw [hc]
  constructor
  · rintro ⟨-, h1 | ⟨gi, gj, h1, h2⟩⟩
    · exact absurd rfl h1
    · rw [hf] at h1
      simp only [List.cons.injEq, and_true] at h1
      obtain ⟨rfl, rfl⟩ := h1
      rw [decide_eq_false hns] at h2
      simpa [creaseSharp] using h2
  · intro hd
    refine ⟨by decide, Or.inr ⟨fi, fj, hf, ?_⟩⟩
    rw [decide_eq_false hns]
    simpa [creaseSharp] using hd

/-- **C121, finding.** The test of the direction looks at the same place of both faces: two coplanar faces that run along an edge in the same direction, with opposite normals, are joined by a smooth edge or
a sharp one depending on the corner their lists begin with. -/
theorem C121_rotation_false : ∃ normal : Nat → V3, normal 0 = ![0, 0, 1] ∧ normal 1 = ![0, 0, -1] ∧
    (∃ pf es, buildPointFaces 4 [[0, 1, 2], [0, 1, 3]] = some pf ∧ featureEdges 4 [[0, 1, 2], [0, 1, 3]] pf (creaseSharp (1 / 2) normal) = some es ∧ (0, 1) ∉ es ∧ (1, 0) ∉ es) ∧
    ∃ pf es, buildPointFaces 4 [[0, 1, 2], [3, 0, 1]] = some pf ∧ featureEdges 4 [[0, 1, 2], [3, 0, 1]] pf (creaseSharp (1 / 2) normal) = some es ∧ (0, 1) ∈ es := by
  have hd : dot3 ![0, 0, 1] ![0, 0, -1] = -1 := by simp [dot3]
  have ht : ∀ f : List (List Nat), f = [[0, 1, 2], [0, 1, 3]] ∨ f = [[0, 1, 2], [3, 0, 1]] → TriMesh 4 f ∧ SimpleFaces f := by
    rintro f (rfl | rfl) <;> refine ⟨?_, ?_⟩ <;> intro g hg <;> simp only [List.mem_cons, List.not_mem_nil, or_false] at hg <;> rcases hg with rfl | rfl <;> decide
  refine ⟨fun k => if k = 0 then ![0, 0, 1] else ![0, 0, -1], rfl, rfl, ?_, ?_⟩
  · obtain ⟨h1, h2⟩ := ht _ (Or.inl rfl)
    obtain ⟨es, e1, -, -, e2⟩ := C121_edges 4 _ h1 h2 (creaseSharp (1 / 2) fun k => if k = 0 then ![0, 0, 1] else ![0, 0, -1]) _ (buildPointFaces_eq 4 _ h1)
    refine ⟨_, es, buildPointFaces_eq 4 _ h1, e1, ?_⟩
    have : ¬ SharpAt [[0, 1, 2], [0, 1, 3]] (creaseSharp (1 / 2) fun k => if k = 0 then ![0, 0, 1] else ![0, 0, -1]) 0 1 := by
      rintro ⟨-, g | ⟨fi, fj, g1, g2⟩⟩
      · exact g (by decide)
      · rw [show facesWith [[0, 1, 2], [0, 1, 3]] 0 1 = [0, 1] by decide] at g1
        simp only [List.cons.injEq, and_true] at g1
        obtain ⟨rfl, rfl⟩ := g1
        have hss : SameSpot [[0, 1, 2], [0, 1, 3]] 0 1 0 1 := ⟨0, by omega, by decide, by decide⟩
        rw [decide_eq_true hss] at g2
        simp [creaseSharp, hd] at g2
        norm_num at g2
    have := mt (e2 0 1 (by decide)).1 this
    exact ⟨fun g => this (Or.inl g), fun g => this (Or.inr g)⟩
  · obtain ⟨h1, h2⟩ := ht _ (Or.inr rfl)
    obtain ⟨e2⟩ : Nonempty (featureEdges 4 [[0, 1, 2], [3, 0, 1]] _ _ = _) := ⟨featureEdges_eq h1 h2 (buildPointFaces_eq 4 _ h1) (creaseSharp (1 / 2) fun k => if k = 0 then ![0, 0, 1] else ![0, 0, -1])⟩
    refine ⟨_, _, buildPointFaces_eq 4 _ h1, e2, ?_⟩
    refine List.mem_flatMap.2 ⟨0, by decide, mem_featTable.2 ⟨0, by omega, mem_featEmit.2 ⟨by decide, by decide, Or.inr ⟨0, 1, by decide, ?_⟩⟩⟩⟩
    rw [decide_eq_false (by decide)]
    simp [creaseSharp, hd]
    norm_num

/-- A case: the edges of a tetrahedron with all angles sharp, and the boundary of two flat triangles. -/
example : (buildPointFaces 4 [[0, 1, 2], [0, 3, 1], [1, 3, 2], [0, 2, 3]]).bind (fun pf => featureEdges 4 [[0, 1, 2], [0, 3, 1], [1, 3, 2], [0, 2, 3]] pf fun _ _ _ => true) =
      some [(0, 1), (1, 2), (2, 0), (0, 3), (3, 1), (3, 2)] ∧
    (buildPointFaces 4 [[0, 1, 2], [0, 2, 3]]).bind (fun pf => featureEdges 4 [[0, 1, 2], [0, 2, 3]] pf fun _ _ _ => false) = some [(0, 1), (1, 2), (2, 3), (3, 0)] := by decide

/-! ## C122: corners, the lookup of edges, the smallest angle -/

theorem ends_cons {n : Nat} {e : Nat × Nat} {es : List (Nat × Nat)} (h : ∀ x ∈ e :: es, x.1 ≠ x.2 ∧ x.1 < n ∧ x.2 < n) : (e.1 ≠ e.2 ∧ e.1 < n ∧ e.2 < n) ∧ ∀ x ∈ es, x.1 ≠ x.2 ∧ x.1 < n ∧ x.2 < n :=
  ⟨h e (by simp), fun x hx => h x (by simp [hx])⟩

theorem countEnds_ne (n : Nat) (es : List (Nat × Nat)) : ∀ cnt, (∀ e ∈ es, e.1 ≠ e.2 ∧ e.1 < n ∧ e.2 < n) → countEnds n es cnt = some fun p => cnt p + (es.map fun e => [e.1, e.2]).flatten.count p := by
  induction es with
  | nil => intro cnt _; simp [countEnds]
  | cons e es ih =>
    intro cnt h
    obtain ⟨h1, h2⟩ := ends_cons h
    rw [countEnds, countCorners_eq n _ cnt (by simp; omega)]
    simp only
    rw [ih _ h2]
    congr 1; funext p
    rw [List.map_cons, List.flatten_cons, List.count_append]; omega

theorem fillEnds_ne (n : Nat) (es : List (Nat × Nat)) : ∀ k pe, (∀ e ∈ es, e.1 ≠ e.2 ∧ e.1 < n ∧ e.2 < n) → (∀ p, (pe p).items.length + (es.map fun e => [e.1, e.2]).flatten.count p ≤ (pe p).cap) →
    fillEnds n k es pe = some fun p => { cap := (pe p).cap, items := (pe p).items ++ inc k (es.map fun e => [e.1, e.2]) p } := by
  induction es with
  | nil => intro k pe _ _; simp [fillEnds, inc]
  | cons e es ih =>
    intro k pe h hr
    obtain ⟨h1, h2⟩ := ends_cons h
    have hr' : ∀ p, (pe p).items.length + (([e.1, e.2] : List Nat).count p + (es.map fun e => [e.1, e.2]).flatten.count p) ≤ (pe p).cap := by
      intro p; have := hr p; rw [List.map_cons, List.flatten_cons, List.count_append] at this; exact this
    rw [fillEnds, fillEnd, if_neg h1.1, fillCorners_eq n k _ pe (by simp; omega) (fun p => by have := hr' p; omega)]
    simp only
    rw [ih _ _ h2 (fun p => by have := hr' p; simp only [List.length_append, List.length_replicate]; omega)]
    simp [inc]

theorem endsAt_ne (es : List (Nat × Nat)) (p : Nat) : ∀ pre, (∀ e ∈ es, e.1 ≠ e.2) → endsAt (pre ++ es) (inc pre.length (es.map fun e => [e.1, e.2]) p) = some (es.filter fun e => e.1 == p || e.2 == p) := by
  induction es with
  | nil => intro pre _; simp [inc, endsAt]
  | cons e es ih =>
    intro pre h
    have hi := ih (pre ++ [e]) fun x hx => h x (by simp [hx])
    rw [List.append_assoc, List.length_append, List.length_singleton, List.singleton_append] at hi
    have he := h e (by simp)
    rw [List.map_cons, inc]
    by_cases hp : e.1 = p ∨ e.2 = p
    · have hc : ([e.1, e.2] : List Nat).count p = 1 := by
        rcases hp with rfl | rfl
        · rw [List.count_cons_self, List.count_eq_zero.2 (by simp; omega)]
        · rw [List.count_cons_of_ne (by omega)]; simp
      rw [hc, List.replicate_one, List.singleton_append, endsAt, hi, List.getElem?_append_right (le_refl _), Nat.sub_self, List.filter_cons_of_pos (by simpa using hp)]
      rfl
    · have hc : ([e.1, e.2] : List Nat).count p = 0 := by rw [List.count_eq_zero]; simp; omega
      rw [hc, List.replicate_zero, List.nil_append, hi, List.filter_cons_of_neg (by simpa using hp)]

theorem endsAt_len {es : List (Nat × Nat)} : ∀ {ks : List Nat} {l : List (Nat × Nat)}, endsAt es ks = some l → ks.length = l.length := by
  intro ks
  induction ks with
  | nil => intro l h; simp [endsAt] at h; subst h; rfl
  | cons k ks ih =>
    intro l h
    rw [endsAt] at h
    cases e1 : es[k]? with
    | none => rw [e1] at h; simp at h
    | some x =>
      cases e2 : endsAt es ks with
      | none => rw [e1, e2] at h; simp at h
      | some l' =>
        rw [e1, e2] at h
        obtain rfl := Option.some.inj h
        rw [List.length_cons, List.length_cons, ih e2]

/-- The table of the edges of each point. -/
theorem pointEdges_ne {n : Nat} {es : List (Nat × Nat)} (h : ∀ e ∈ es, e.1 ≠ e.2 ∧ e.1 < n ∧ e.2 < n) :
    ∃ pe, pointEdges n es = some pe ∧ ∀ p, endsAt es (pe p).items = some (es.filter fun e => e.1 == p || e.2 == p) := by
  unfold pointEdges
  rw [countEnds_ne n es _ h]
  simp only
  rw [fillEnds_ne n es 0 _ h (by simp)]
  refine ⟨_, rfl, fun p => ?_⟩
  have := endsAt_ne es p [] fun e he => (h e he).1
  simpa using this

/-- The neighbours of a point, one for each of its edges. -/
theorem farEnds {es : List (Nat × Nat)} (h : ∀ e ∈ es, e.1 ≠ e.2) (hp : es.Pairwise fun e x => ¬ SameEdge e x) (p : Nat) :
    ((es.filter fun e => e.1 == p || e.2 == p).map (farEnd p)).Nodup ∧ ∀ q, q ∈ (es.filter fun e => e.1 == p || e.2 == p).map (farEnd p) ↔ q ∈ sharpNbrs es p := by
  constructor
  · refine List.pairwise_map.2 ((List.Pairwise.filter _ hp).imp_of_mem fun {a b} ha hb hab he => hab ?_)
    simp only [List.mem_filter, Bool.or_eq_true, beq_iff_eq] at ha hb
    obtain ⟨x, y⟩ := a
    obtain ⟨z, w⟩ := b
    have g1 := h _ ha.1
    have g2 := h _ hb.1
    have ha := ha.2
    have hb := hb.2
    unfold SameEdge
    unfold farEnd at he
    simp only [Prod.mk.injEq] at *
    split_ifs at he <;> omega
  · intro q
    simp only [List.mem_map, List.mem_filter, Bool.or_eq_true, beq_iff_eq, sharpNbrs, Set.mem_ofPred_eq]
    constructor
    · rintro ⟨⟨a, b⟩, ⟨hm, hq⟩, rfl⟩
      unfold farEnd
      dsimp only at hq ⊢
      split_ifs with g
      · subst g; exact Or.inl hm
      · rcases hq with hq | hq
        · exact absurd hq g
        · subst hq; exact Or.inr hm
    · rintro (hm | hm)
      · exact ⟨_, ⟨hm, Or.inl rfl⟩, by simp [farEnd]⟩
      · refine ⟨_, ⟨hm, Or.inr rfl⟩, ?_⟩
        unfold farEnd
        exact if_neg (h _ hm)

theorem commonVertices_eq (f : List Nat) {g : List Nat} (hg : g.Nodup) : commonVertices f g = (f.filter fun a => decide (a ∈ g)).length := by
  unfold commonVertices
  induction f with
  | nil => rfl
  | cons a f ih =>
    have hc : (g.countP fun b => decide (a = b)) = if a ∈ g then 1 else 0 := by
      rw [← hg.count (a := a), List.count]
      congr 1
      funext b
      by_cases hab : a = b
      · subst hab; simp
      · simp [hab, Ne.symm hab]
    rw [List.map_cons, List.sum_cons, ih, hc, List.filter_cons]
    by_cases ha : a ∈ g <;> simp [ha]; omega

/-- Two faces meet in a point only. -/
theorem common_one {f g : List Nat} (hf : f.Nodup) (hg : g.Nodup) {p : Nat} (h1 : p ∈ f) (h2 : p ∈ g) : commonVertices f g = 1 ↔ ∀ q, q ∈ f → q ∈ g → q = p := by
  rw [commonVertices_eq f hg]
  have hm : p ∈ f.filter fun a => decide (a ∈ g) := List.mem_filter.2 ⟨h1, by simpa using h2⟩
  constructor
  · intro hl q hq1 hq2
    obtain ⟨a, ea⟩ := List.length_eq_one_iff.1 hl
    have hq : q ∈ f.filter fun a => decide (a ∈ g) := List.mem_filter.2 ⟨hq1, by simpa using hq2⟩
    rw [ea, List.mem_singleton] at hm hq
    rw [hm, hq]
  · intro hall
    have : (f.filter fun a => decide (a ∈ g)) = [p] := by
      refine List.perm_singleton.1 ((List.perm_ext_iff_of_nodup (hf.filter _) (List.nodup_singleton p)).2 fun q => ?_)
      simp only [List.mem_filter, decide_eq_true_eq, List.mem_singleton]
      exact ⟨fun hq => hall q hq.1 hq.2, fun hq => hq ▸ ⟨h1, h2⟩⟩
    rw [this]; rfl

/-- Two faces of the list, in its order, meet sharply in `p` only. -/
def PinchSpec (faces : List (List Nat)) (pinch : Nat → Nat → Bool) (fi fj : Nat) : Prop := pinch fi fj = true ∧ commonVertices (faces.getD fi []) (faces.getD fj []) = 1

theorem pinchFrom_eq {faces : List (List Nat)} {pinch : Nat → Nat → Bool} {fi : Nat} (hi : fi < faces.length) (fs : List Nat) (h : ∀ k ∈ fs, k < faces.length) :
    pinchFrom faces pinch fi fs = some (decide (∃ fj ∈ fs, PinchSpec faces pinch fi fj)) := by
  induction fs with
  | nil => simp [pinchFrom]
  | cons fj fs ih =>
    have g1 : faces[fi]? = some (faces.getD fi []) := by simp [List.getD, List.getElem?_eq_getElem hi]
    have g2 : faces[fj]? = some (faces.getD fj []) := by simp [List.getD, List.getElem?_eq_getElem (h fj (by simp))]
    rw [pinchFrom, g1, g2, ih fun k hk => h k (by simp [hk])]
    dsimp only
    have hr : (∃ x ∈ fj :: fs, PinchSpec faces pinch fi x) ↔ PinchSpec faces pinch fi fj ∨ ∃ x ∈ fs, PinchSpec faces pinch fi x := by simp
    rw [decide_eq_decide.2 hr]
    by_cases h1 : pinch fi fj = true
    · rw [if_pos h1]
      by_cases h2 : commonVertices (faces.getD fi []) (faces.getD fj []) = 1
      · rw [if_pos h2, decide_eq_true (Or.inl ⟨h1, h2⟩)]
      · rw [if_neg h2, decide_eq_decide.2 (or_iff_right fun g => h2 g.2)]
    · rw [if_neg h1, decide_eq_decide.2 (or_iff_right fun g => h1 g.1)]

theorem pinchAt_eq {faces : List (List Nat)} {pinch : Nat → Nat → Bool} (fs : List Nat) (h : ∀ k ∈ fs, k < faces.length) (hs : fs.Pairwise (· < ·)) :
    pinchAt faces pinch fs = some (decide (∃ fi ∈ fs, ∃ fj ∈ fs, fi < fj ∧ PinchSpec faces pinch fi fj)) := by
  induction fs with
  | nil => simp [pinchAt]
  | cons k fs ih =>
    obtain ⟨hs1, hs2⟩ := List.pairwise_cons.1 hs
    have hr : (∃ fi ∈ k :: fs, ∃ fj ∈ k :: fs, fi < fj ∧ PinchSpec faces pinch fi fj) ↔ (∃ fj ∈ fs, PinchSpec faces pinch k fj) ∨ ∃ fi ∈ fs, ∃ fj ∈ fs, fi < fj ∧ PinchSpec faces pinch fi fj := by
      constructor
      · rintro ⟨fi, hi, fj, hj, hlt, hp⟩
        rw [List.mem_cons] at hi hj
        rcases hi with rfl | hi <;> rcases hj with rfl | hj
        · omega
        · exact Or.inl ⟨fj, hj, hp⟩
        · have := hs1 fi hi; omega
        · exact Or.inr ⟨fi, hi, fj, hj, hlt, hp⟩
      · rintro (⟨fj, hj, hp⟩ | ⟨fi, hi, fj, hj, hlt, hp⟩)
        · exact ⟨k, by simp, fj, by simp [hj], hs1 fj hj, hp⟩
        · exact ⟨fi, by simp [hi], fj, by simp [hj], hlt, hp⟩
    rw [pinchAt, pinchFrom_eq (h k (by simp)) fs fun x hx => h x (by simp [hx]), decide_eq_decide.2 hr]
    by_cases h1 : ∃ fj ∈ fs, PinchSpec faces pinch k fj
    · rw [decide_eq_true h1, decide_eq_true (Or.inl h1)]
    · rw [decide_eq_false h1, decide_eq_decide.2 (or_iff_right h1)]
      exact ih (fun x hx => h x (by simp [hx])) hs2

/-- `p` is a corner of the mesh: a corner of its sharp edges, or a point without sharp edges in which two faces meet sharply that share nothing else. -/
def FeatureCornerSpec (faces : List (List Nat)) (es : List (Nat × Nat)) (bend : Nat → Nat → Nat → Bool) (pinch : Nat → Nat → Bool) (p : Nat) : Prop :=
  CornerSpec es bend p ∨ (sharpNbrs es p = ∅ ∧ ∃ fi fj, fi < fj ∧ fj < faces.length ∧ pinch fi fj = true ∧ p ∈ faces.getD fi [] ∧ p ∈ faces.getD fj [] ∧ ∀ q, q ∈ faces.getD fi [] → q ∈ faces.getD fj [] → q = p)

theorem featureCorner_spec {n : Nat} {faces : List (List Nat)} {pf pe : Nat → FaceBuf} {es : List (Nat × Nat)} (h : TriMesh n faces) (hs : SimpleFaces faces) (hb : buildPointFaces n faces = some pf)
    (he : ∀ e ∈ es, e.1 ≠ e.2) (hp : es.Pairwise fun e x => ¬ SameEdge e x) {bend : Nat → Nat → Nat → Bool} (hsym : ∀ a p b, bend a p b = bend b p a) (pinch : Nat → Nat → Bool) (p : Nat)
    (hpe : endsAt es (pe p).items = some (es.filter fun e => e.1 == p || e.2 == p)) :
    ∃ r, featureCorner faces pf pe es bend pinch p = some r ∧ (r = true ↔ FeatureCornerSpec faces es bend pinch p) := by
  obtain ⟨hnd, hmem⟩ := farEnds he hp p
  have hlen := endsAt_len hpe
  have hcard : (sharpNbrs es p).ncard = (pe p).items.length := by
    have : sharpNbrs es p = ↑((es.filter fun e => e.1 == p || e.2 == p).map (farEnd p)).toFinset := by
      ext q
      rw [Finset.mem_coe, List.mem_toFinset]
      exact (hmem q).symm
    rw [this, Set.ncard_coe_finset, List.toFinset_card_of_nodup hnd, List.length_map, hlen]
  have hfin : (sharpNbrs es p).Finite := by
    have : sharpNbrs es p = ↑((es.filter fun e => e.1 == p || e.2 == p).map (farEnd p)).toFinset := by
      ext q
      rw [Finset.mem_coe, List.mem_toFinset]
      exact (hmem q).symm
    rw [this]
    exact Finset.finite_toSet _
  unfold featureCorner
  dsimp only
  by_cases h1 : (pe p).items.length = 1 ∨ (pe p).items.length > 2
  · rw [if_pos h1]
    refine ⟨true, rfl, iff_of_true rfl (Or.inl ?_)⟩
    rcases h1 with h1 | h1
    · exact Or.inl (hcard.trans h1)
    · exact Or.inr (Or.inl (by omega))
  · rw [if_neg h1]
    by_cases h2 : (pe p).items.length = 2
    · rw [if_pos h2, hpe]
      rw [h2] at hlen
      generalize hL : (es.filter fun e => e.1 == p || e.2 == p) = L at *
      match L, hlen with
      | [e, e'], _ =>
        refine ⟨_, rfl, ?_⟩
        have hset : sharpNbrs es p = {farEnd p e, farEnd p e'} := by
          ext q
          rw [← hmem q]
          simp
        have hne : farEnd p e ≠ farEnd p e' := by simpa using hnd
        constructor
        · intro hbd
          exact Or.inl (Or.inr (Or.inr ⟨_, _, hne, hset, hbd⟩))
        · rintro ((g | g | ⟨a, b, hab, g1, g2⟩) | ⟨g, -⟩)
          · omega
          · omega
          · rw [hset] at g1
            rcases Set.pair_eq_pair_iff.1 g1 with ⟨rfl, rfl⟩ | ⟨rfl, rfl⟩
            · exact g2
            · rw [hsym]; exact g2
          · rw [g, Set.ncard_empty] at hcard
            omega
    · rw [if_neg h2]
      have h0 : (pe p).items.length = 0 := by omega
      have hempty : sharpNbrs es p = ∅ := (Set.ncard_eq_zero hfin).1 (hcard.trans h0)
      have hitems : (pf p).items = (List.range faces.length).filter (fun x => decide (p ∈ faces.getD x [])) := by
        rw [buildPointFaces_eq n faces h] at hb
        cases hb
        show inc 0 faces p = _
        rw [inc_simple 0 faces hs p]; simp
      rw [hitems, pinchAt_eq _ (fun k hk => List.mem_range.1 (List.mem_filter.1 hk).1) (List.Pairwise.filter _ List.pairwise_lt_range)]
      refine ⟨_, rfl, ?_⟩
      rw [decide_eq_true_eq]
      simp only [List.mem_filter, List.mem_range, decide_eq_true_eq]
      constructor
      · rintro ⟨fi, ⟨h3, h4⟩, fj, ⟨h5, h6⟩, h7, h8, h9⟩
        exact Or.inr ⟨hempty, fi, fj, h7, h5, h8, h4, h6, (common_one (hs _ (getD_mem h3)) (hs _ (getD_mem h5)) h4 h6).1 h9⟩
      · rintro ((g | g | ⟨a, b, hab, g1, g2⟩) | ⟨-, fi, fj, h7, h5, h8, h4, h6, h9⟩)
        · omega
        · omega
        · rw [hempty] at g1
          exact absurd (g1 ▸ Set.mem_insert a {b} : a ∈ (∅ : Set Nat)) (Set.notMem_empty a)
        · exact ⟨fi, ⟨by omega, h4⟩, fj, ⟨h5, h6⟩, h7, h8, (common_one (hs _ (getD_mem (by omega))) (hs _ (getD_mem h5)) h4 h6).2 h9⟩

theorem featureCornerLoop_spec {faces : List (List Nat)} {pf pe : Nat → FaceBuf} {es : List (Nat × Nat)} {bend : Nat → Nat → Nat → Bool} {pinch : Nat → Nat → Bool} {S : Nat → Prop}
    (h : ∀ p, ∃ r, featureCorner faces pf pe es bend pinch p = some r ∧ (r = true ↔ S p)) (n : Nat) :
    ∃ l, featureCornerLoop faces pf pe es bend pinch n = some l ∧ l.Pairwise (· < ·) ∧ ∀ p, p ∈ l ↔ p < n ∧ S p := by
  induction n with
  | zero => exact ⟨[], rfl, List.Pairwise.nil, by simp⟩
  | succ n ih =>
    obtain ⟨l, e, h1, h2⟩ := ih
    obtain ⟨r, er, hr⟩ := h n
    rw [featureCornerLoop, e, er]
    cases r with
    | true =>
      refine ⟨l ++ [n], rfl, List.pairwise_append.2 ⟨h1, by simp, fun a ha b hb => ?_⟩, fun p => ?_⟩
      · have := (h2 a).1 ha; simp only [List.mem_singleton] at hb; omega
      · simp only [List.mem_append, List.mem_singleton, h2]
        constructor
        · rintro (g | rfl)
          · exact ⟨by omega, g.2⟩
          · exact ⟨by omega, hr.1 rfl⟩
        · rintro ⟨g1, g2⟩
          by_cases hp : p = n
          · exact Or.inr hp
          · exact Or.inl ⟨by omega, g2⟩
    | false =>
      refine ⟨l, rfl, h1, fun p => ?_⟩
      rw [h2]
      constructor
      · rintro ⟨g1, g2⟩; exact ⟨by omega, g2⟩
      · rintro ⟨g1, g2⟩
        by_cases hp : p = n
        · subst hp; exact absurd (hr.2 g2) (by simp)
        · exact ⟨by omega, g2⟩

theorem sharpEdgeLoop_eq {es : List (Nat × Nat)} {q : Nat} : ∀ {ks : List Nat} {l : List (Nat × Nat)}, endsAt es ks = some l → sharpEdgeLoop es q ks = some (decide (∃ e ∈ l, e.1 = q ∨ e.2 = q)) := by
  intro ks
  induction ks with
  | nil => intro l h; simp [endsAt] at h; subst h; simp [sharpEdgeLoop]
  | cons k ks ih =>
    intro l h
    rw [endsAt] at h
    cases e1 : es[k]? with
    | none => rw [e1] at h; simp at h
    | some x =>
      cases e2 : endsAt es ks with
      | none => rw [e1, e2] at h; simp at h
      | some l' =>
        rw [e1, e2] at h
        obtain rfl := Option.some.inj h
        rw [sharpEdgeLoop, e1]
        dsimp only
        have hr : (∃ e ∈ x :: l', e.1 = q ∨ e.2 = q) ↔ (x.1 = q ∨ x.2 = q) ∨ ∃ e ∈ l', e.1 = q ∨ e.2 = q := by simp
        rw [decide_eq_decide.2 hr]
        by_cases hx : x.1 = q ∨ x.2 = q
        · rw [if_pos hx, decide_eq_true (Or.inl hx)]
        · rw [if_neg hx, ih e2, decide_eq_decide.2 (or_iff_right hx)]

/-- **C122.** For every triangle mesh without repeated corners the sharp features are found without undefined behaviour: the edges are those of C121; the corners are in ascending order exactly the points where
one sharp edge ends, three or more meet, two enclose a sharp angle, or where there is no sharp edge but two faces meet sharply that share no other point; and the lookup of an edge finds exactly the sharp edges. -/
theorem C122_features (n : Nat) (faces : List (List Nat)) (h : TriMesh n faces) (hs : SimpleFaces faces) (sharp : Nat → Nat → Bool → Bool) (bend : Nat → Nat → Nat → Bool)
    (hsym : ∀ a p b, bend a p b = bend b p a) (pinch : Nat → Nat → Bool) :
    ∃ F, extractFeatures n faces sharp bend pinch = some F ∧ (∀ a b, a ≠ b → ((a, b) ∈ F.edges ∨ (b, a) ∈ F.edges ↔ SharpAt faces sharp a b)) ∧
    F.corners.Pairwise (· < ·) ∧ (∀ p, p ∈ F.corners ↔ p < n ∧ FeatureCornerSpec faces F.edges bend pinch p) ∧
    ∀ p q, p < n → p ≠ q → ∃ r, isSharpEdge n F p q = some r ∧ (r = true ↔ SharpAt faces sharp p q) := by
  have hb := buildPointFaces_eq n faces h
  obtain ⟨es, e1, e2, e3, e4⟩ := C121_edges n faces h hs sharp _ hb
  obtain ⟨pe, p1, p2⟩ := pointEdges_ne e3
  obtain ⟨l, l1, l2, l3⟩ := featureCornerLoop_spec (fun p => featureCorner_spec h hs hb (fun e he => (e3 e he).1) e2 hsym pinch p (p2 p)) n
  refine ⟨⟨es, l, pe⟩, ?_, e4, l2, l3, ?_⟩
  · unfold extractFeatures
    rw [hb]
    simp only [e1, p1, l1]
  · intro p q hp hpq
    unfold isSharpEdge
    dsimp only
    rw [← e4 p q hpq]
    by_cases h0 : es.length = 0
    · rw [if_pos h0]
      rw [List.length_eq_zero_iff] at h0
      subst h0
      exact ⟨false, rfl, by simp⟩
    · rw [if_neg h0, if_pos hp, sharpEdgeLoop_eq (p2 p)]
      refine ⟨_, rfl, ?_⟩
      rw [decide_eq_true_eq]
      constructor
      · rintro ⟨⟨a, b⟩, hm, hq⟩
        obtain ⟨hm', ht⟩ := List.mem_filter.1 hm
        simp only [Bool.or_eq_true, beq_iff_eq] at ht hq
        rcases ht with rfl | rfl <;> rcases hq with rfl | rfl
        · exact absurd rfl hpq
        · exact Or.inl hm'
        · exact Or.inr hm'
        · exact absurd rfl hpq
      · rintro (hm | hm)
        · exact ⟨_, List.mem_filter.2 ⟨hm, by simp⟩, Or.inr rfl⟩
        · exact ⟨_, List.mem_filter.2 ⟨hm, by simp⟩, Or.inl rfl⟩

/-- The test of the code for two edges is symmetric. -/
theorem bendUnit_symm (th : ℝ) (x : Nat → V3) (a p b : Nat) : bendUnit th x a p b = bendUnit th x b p a := by
  have hn : ∀ u v : V3, (normalize3 fun d => u d - v d).1 = fun d => -(normalize3 fun d => v d - u d).1 d := by
    intro u v
    have hl : dot3 (fun d => u d - v d) (fun d => u d - v d) = dot3 (fun d => v d - u d) (fun d => v d - u d) := by
      simp only [dot3]; ring
    unfold normalize3
    simp only [hl]
    split_ifs <;> funext d <;> dsimp only <;> ring
  unfold bendUnit
  rw [hn (x a) (x p), hn (x p) (x b)]
  congr 1
  simp only [dot3]
  rw [show -(normalize3 fun d => x p d - x a d).1 0 * -(normalize3 fun d => x b d - x p d).1 0 + -(normalize3 fun d => x p d - x a d).1 1 * -(normalize3 fun d => x b d - x p d).1 1 +
    -(normalize3 fun d => x p d - x a d).1 2 * -(normalize3 fun d => x b d - x p d).1 2 = (normalize3 fun d => x b d - x p d).1 0 * (normalize3 fun d => x p d - x a d).1 0 +
    (normalize3 fun d => x b d - x p d).1 1 * (normalize3 fun d => x p d - x a d).1 1 + (normalize3 fun d => x b d - x p d).1 2 * (normalize3 fun d => x p d - x a d).1 2 by ring]

/-- A smooth edge between the faces `fi` and `fj`. -/
def SmoothAt (faces : List (List Nat)) (sharp : Nat → Nat → Bool → Bool) (fi fj : Nat) : Prop := ∃ a b, a ≠ b ∧ facesWith faces a b = [fi, fj] ∧ ¬ SharpAt faces sharp a b

/-- What the search for the smallest cosine has found. -/
def MinDotInv (faces : List (List Nat)) (sharp : Nat → Nat → Bool → Bool) (cosine : Nat → Nat → ℝ) (seen : Nat × Nat → Prop) (m : ℝ) : Prop :=
  m ≤ 1 ∧ (m = 1 ∨ ∃ fi fj, SmoothAt faces sharp fi fj ∧ m = cosine fi fj) ∧ ∀ e fi fj, seen e → facesWith faces e.1 e.2 = [fi, fj] → ¬ SharpAt faces sharp e.1 e.2 → m ≤ cosine fi fj

theorem minDotEdge_spec {n : Nat} {faces : List (List Nat)} {pf : Nat → FaceBuf} (h : TriMesh n faces) (hs : SimpleFaces faces) (hb : buildPointFaces n faces = some pf) {sharp : Nat → Nat → Bool → Bool} {F : ModelFeatures}
    (hF : ∀ p q, p < n → p ≠ q → ∃ r, isSharpEdge n F p q = some r ∧ (r = true ↔ SharpAt faces sharp p q)) {cosine : Nat → Nat → ℝ} (hc : ∀ i j, cosine i j = cosine j i) (k : Nat) {e : Nat × Nat}
    (h1 : e.1 < n) (h2 : e.1 ≠ e.2) (h0 : sharedBy faces e.1 e.2 ≠ 0) {m : ℝ} {seen : Nat × Nat → Prop} (hm : MinDotInv faces sharp cosine seen m) :
    ∃ m', minDotEdge n faces pf F cosine k m e = some m' ∧ MinDotInv faces sharp cosine (fun x => seen x ∨ x = e) m' := by
  obtain ⟨r, er, hr⟩ := hF e.1 e.2 h1 h2
  unfold minDotEdge
  rw [er]
  cases r with
  | true =>
    refine ⟨m, rfl, hm.1, hm.2.1, ?_⟩
    rintro x fi fj (hx | rfl) hf hns
    · exact hm.2.2 x fi fj hx hf hns
    · exact absurd (hr.1 rfl) hns
  | false =>
    have hns : ¬ SharpAt faces sharp e.1 e.2 := fun g => by have := hr.2 g; simp at this
    have h2' : sharedBy faces e.1 e.2 = 2 := by
      by_contra g
      exact hns ⟨h0, Or.inl g⟩
    obtain ⟨fi, fj, ef⟩ := two_faces h2'
    rw [edgeFaces_simple h hs hb h1 h2, ef]
    have hv : (if fi ≠ k then cosine fj fi else cosine fi fj) = cosine fi fj := by
      split_ifs
      · exact hc fj fi
      · rfl
    dsimp only
    rw [hv]
    have hse : SmoothAt faces sharp fi fj := ⟨_, _, h2, ef, hns⟩
    by_cases hlt : cosine fi fj < m
    · rw [if_pos hlt]
      refine ⟨_, rfl, by linarith [hm.1], Or.inr ⟨fi, fj, hse, rfl⟩, ?_⟩
      rintro x gi gj (hx | rfl) hf hns'
      · exact hlt.le.trans (hm.2.2 x gi gj hx hf hns')
      · rw [ef] at hf
        simp only [List.cons.injEq, and_true] at hf
        rw [hf.1, hf.2]
    · rw [if_neg hlt]
      refine ⟨_, rfl, hm.1, hm.2.1, ?_⟩
      rintro x gi gj (hx | rfl) hf hns'
      · exact hm.2.2 x gi gj hx hf hns'
      · rw [ef] at hf
        simp only [List.cons.injEq, and_true] at hf
        rw [← hf.1, ← hf.2]
        exact not_lt.1 hlt

theorem MinDotInv.mono {faces : List (List Nat)} {sharp : Nat → Nat → Bool → Bool} {cosine : Nat → Nat → ℝ} {seen seen' : Nat × Nat → Prop} {m : ℝ} (h : MinDotInv faces sharp cosine seen m)
    (hs : ∀ x, seen' x → seen x) : MinDotInv faces sharp cosine seen' m := ⟨h.1, h.2.1, fun e fi fj he => h.2.2 e fi fj (hs e he)⟩

theorem minDotFace_spec {n : Nat} {faces : List (List Nat)} {pf : Nat → FaceBuf} (h : TriMesh n faces) (hs : SimpleFaces faces) (hb : buildPointFaces n faces = some pf) {sharp : Nat → Nat → Bool → Bool} {F : ModelFeatures}
    (hF : ∀ p q, p < n → p ≠ q → ∃ r, isSharpEdge n F p q = some r ∧ (r = true ↔ SharpAt faces sharp p q)) {cosine : Nat → Nat → ℝ} (hc : ∀ i j, cosine i j = cosine j i) (k : Nat) (es : List (Nat × Nat)) :
    ∀ (seen : Nat × Nat → Prop) (m : ℝ), (∀ e ∈ es, e.1 < n ∧ e.1 ≠ e.2 ∧ sharedBy faces e.1 e.2 ≠ 0) → MinDotInv faces sharp cosine seen m →
    ∃ m', minDotFace n faces pf F cosine k es m = some m' ∧ MinDotInv faces sharp cosine (fun x => seen x ∨ x ∈ es) m' := by
  induction es with
  | nil => intro seen m _ hm; exact ⟨m, rfl, hm.mono fun x hx => by simpa using hx⟩
  | cons e es ih =>
    intro seen m he hm
    obtain ⟨g1, g2, g3⟩ := he e (by simp)
    obtain ⟨m1, a1, a2⟩ := minDotEdge_spec h hs hb hF hc k g1 g2 g3 hm
    obtain ⟨m2, b1, b2⟩ := ih _ m1 (fun x hx => he x (by simp [hx])) a2
    refine ⟨m2, ?_, b2.mono fun x hx => ?_⟩
    · rw [minDotFace, a1]
      exact b1
    · rcases hx with hx | hx
      · exact Or.inl (Or.inl hx)
      · rcases List.mem_cons.1 hx with hx | hx
        · exact Or.inl (Or.inr hx)
        · exact Or.inr hx

theorem minDotFaces_spec {n : Nat} {faces : List (List Nat)} {pf : Nat → FaceBuf} (h : TriMesh n faces) (hs : SimpleFaces faces) (hb : buildPointFaces n faces = some pf) {sharp : Nat → Nat → Bool → Bool} {F : ModelFeatures}
    (hF : ∀ p q, p < n → p ≠ q → ∃ r, isSharpEdge n F p q = some r ∧ (r = true ↔ SharpAt faces sharp p q)) {cosine : Nat → Nat → ℝ} (hc : ∀ i j, cosine i j = cosine j i) (fs : List (List Nat)) :
    ∀ (k : Nat) (seen : Nat × Nat → Prop) (m : ℝ), (∀ f ∈ fs, f ∈ faces) → MinDotInv faces sharp cosine seen m →
    ∃ m', minDotFaces n faces pf F cosine k fs m = some m' ∧ MinDotInv faces sharp cosine (fun x => seen x ∨ ∃ f ∈ fs, x ∈ faceEdges f) m' := by
  induction fs with
  | nil => intro k seen m _ hm; exact ⟨m, rfl, hm.mono fun x hx => by simpa using hx⟩
  | cons f fs ih =>
    intro k seen m hf hm
    have hf0 := hf f (by simp)
    obtain ⟨m1, a1, a2⟩ := minDotFace_spec h hs hb hF hc k (faceEdges f) seen m (fun e he => by
      obtain ⟨g1, g2, g3⟩ := (faceEdges_simple (h f hf0).1 (hs f hf0)).1 e he
      exact ⟨(h f hf0).2 _ g1, g3, sharedBy_pos hf0 g1 g2⟩) hm
    obtain ⟨m2, b1, b2⟩ := ih (k + 1) _ m1 (fun x hx => hf x (by simp [hx])) a2
    refine ⟨m2, ?_, b2.mono fun x hx => ?_⟩
    · rw [minDotFaces, edges3_tri (h f hf0).1]
      dsimp only
      rw [a1]
      exact b1
    · rcases hx with hx | ⟨g, hg, hx⟩
      · exact Or.inl (Or.inl hx)
      · rcases List.mem_cons.1 hg with rfl | hg
        · exact Or.inl (Or.inr hx)
        · exact Or.inr ⟨g, hg, hx⟩

/-- **C122, smallest angle.** After the extraction the search for the smallest cosine over the smooth edges reads no unwritten entry; its result is the smallest of 1 and the cosines at the smooth edges. -/
theorem C122_min_angle (n : Nat) (faces : List (List Nat)) (h : TriMesh n faces) (hs : SimpleFaces faces) (sharp : Nat → Nat → Bool → Bool) (bend : Nat → Nat → Nat → Bool)
    (hsym : ∀ a p b, bend a p b = bend b p a) (pinch : Nat → Nat → Bool) (cosine : Nat → Nat → ℝ) (hc : ∀ i j, cosine i j = cosine j i) (pf : Nat → FaceBuf) (hb : buildPointFaces n faces = some pf) (F : ModelFeatures)
    (hF : extractFeatures n faces sharp bend pinch = some F) :
    ∃ m, minDotFaces n faces pf F cosine 0 faces 1 = some m ∧ m ≤ 1 ∧ (m = 1 ∨ ∃ fi fj, SmoothAt faces sharp fi fj ∧ m = cosine fi fj) ∧ ∀ fi fj, SmoothAt faces sharp fi fj → m ≤ cosine fi fj := by
  obtain ⟨F', e1, -, -, -, e5⟩ := C122_features n faces h hs sharp bend hsym pinch
  rw [hF] at e1
  obtain rfl := Option.some.inj e1
  obtain ⟨m, m1, m2, m3, m4⟩ := minDotFaces_spec h hs hb e5 hc faces 0 (fun _ => False) 1 (fun _ hf => hf) ⟨le_refl 1, Or.inl rfl, fun _ _ _ hx => absurd hx id⟩
  refine ⟨m, m1, m2, m3, ?_⟩
  rintro fi fj ⟨a, b, hab, hf, hns⟩
  have hmem : fi ∈ facesWith faces a b := by rw [hf]; simp
  obtain ⟨hk, ha, hb'⟩ := mem_facesWith.1 hmem
  obtain ⟨i, hi, hse⟩ := exists_edgeAt (h _ (getD_mem hk)).1 ha hb' hab
  have hfe : edgeAt (faces.getD fi []) i ∈ faceEdges (faces.getD fi []) := by
    obtain ⟨x, y, z, ef⟩ := tri_eq (h _ (getD_mem hk)).1
    rw [ef]
    rcases lt_three hi with rfl | rfl | rfl <;> simp [edgeAt, faceEdges, edgesFrom]
  rcases hse with hse | hse <;> rw [hse] at hfe
  · exact m4 (a, b) fi fj (Or.inr ⟨_, getD_mem hk, hfe⟩) hf hns
  · refine m4 (b, a) fi fj (Or.inr ⟨_, getD_mem hk, hfe⟩) (by rw [← hf]; exact facesWith_comm faces b a) fun g => hns ?_
    obtain ⟨g0, g1⟩ := g
    refine ⟨by rw [sharedBy_comm]; exact g0, ?_⟩
    rcases g1 with g1 | ⟨gi, gj, g1, g2⟩
    · left; rw [sharedBy_comm]; exact g1
    · refine Or.inr ⟨gi, gj, by rw [facesWith_comm]; exact g1, ?_⟩
      rw [← g2]
      congr 1
      refine decide_eq_decide.2 ?_
      unfold SameSpot
      simp only [or_comm]

/-- **C122, finding.** The smallest cosine does not use the changed sign: two coplanar triangles with a smooth edge between them that run along it in the same direction give -1, an angle of zero degrees. -/
theorem C122_min_angle_false : ∃ normal : Nat → V3, normal 0 = ![0, 0, 1] ∧ normal 1 = ![0, 0, -1] ∧
    ∀ bend, (∀ a p b, bend a p b = bend b p a) → ∀ pinch, ∃ pf F, buildPointFaces 4 [[0, 1, 2], [0, 1, 3]] = some pf ∧
      extractFeatures 4 [[0, 1, 2], [0, 1, 3]] (creaseSharp (1 / 2) normal) bend pinch = some F ∧ (0, 1) ∉ F.edges ∧ (1, 0) ∉ F.edges ∧
      minDotFaces 4 [[0, 1, 2], [0, 1, 3]] pf F (fun i j => dot3 (normal i) (normal j)) 0 [[0, 1, 2], [0, 1, 3]] 1 = some (-1) := by
  have hd : dot3 ![0, 0, 1] ![0, 0, -1] = -1 := by simp [dot3]
  have h1 : TriMesh 4 [[0, 1, 2], [0, 1, 3]] := by intro g hg; simp only [List.mem_cons, List.not_mem_nil, or_false] at hg; rcases hg with rfl | rfl <;> decide
  have h2 : SimpleFaces [[0, 1, 2], [0, 1, 3]] := by intro g hg; simp only [List.mem_cons, List.not_mem_nil, or_false] at hg; rcases hg with rfl | rfl <;> decide
  refine ⟨fun k => if k = 0 then ![0, 0, 1] else ![0, 0, -1], rfl, rfl, fun bend hsym pinch => ?_⟩
  obtain ⟨F, f1, f2, -⟩ := C122_features 4 _ h1 h2 (creaseSharp (1 / 2) fun k => if k = 0 then ![0, 0, 1] else ![0, 0, -1]) bend hsym pinch
  have hc : ∀ i j : Nat, dot3 ((fun k => if k = 0 then ![0, 0, 1] else ![0, 0, -1] : Nat → V3) i) ((fun k => if k = 0 then ![0, 0, 1] else ![0, 0, -1] : Nat → V3) j) =
      dot3 ((fun k => if k = 0 then ![0, 0, 1] else ![0, 0, -1] : Nat → V3) j) ((fun k => if k = 0 then ![0, 0, 1] else ![0, 0, -1] : Nat → V3) i) := by
    intro i j; simp only [dot3]; ring
  have hns : ¬ SharpAt [[0, 1, 2], [0, 1, 3]] (creaseSharp (1 / 2) fun k => if k = 0 then ![0, 0, 1] else ![0, 0, -1]) 0 1 := by
    rintro ⟨-, g | ⟨fi, fj, g1, g2⟩⟩
    · exact g (by decide)
    · rw [show facesWith [[0, 1, 2], [0, 1, 3]] 0 1 = [0, 1] by decide] at g1
      simp only [List.cons.injEq, and_true] at g1
      obtain ⟨rfl, rfl⟩ := g1
      have hss : SameSpot [[0, 1, 2], [0, 1, 3]] 0 1 0 1 := ⟨0, by omega, by decide, by decide⟩
      rw [decide_eq_true hss] at g2
      simp [creaseSharp, hd] at g2
      norm_num at g2
  obtain ⟨m, m1, m2, m3, m4⟩ := C122_min_angle 4 _ h1 h2 _ bend hsym pinch (fun i j => dot3 ((fun k => if k = 0 then ![0, 0, 1] else ![0, 0, -1] : Nat → V3) i)
    ((fun k => if k = 0 then ![0, 0, 1] else ![0, 0, -1] : Nat → V3) j)) hc _ (buildPointFaces_eq 4 _ h1) F f1
  refine ⟨_, F, buildPointFaces_eq 4 _ h1, f1, fun g => hns ((f2 0 1 (by decide)).1 (Or.inl g)), fun g => hns ((f2 0 1 (by decide)).1 (Or.inr g)), ?_⟩
  have hle := m4 0 1 ⟨0, 1, by decide, by decide, hns⟩
  simp only [one_ne_zero, if_true, if_false, hd] at hle
  have hge : -1 ≤ m := by
    rcases m3 with m3 | ⟨fi, fj, ⟨a, b, -, hf, -⟩, m3⟩
    · linarith
    · have hlt : fi < fj := by
        have := facesWith_sorted [[0, 1, 2], [0, 1, 3]] a b
        rw [hf] at this
        simpa using this
      have hj : fj < 2 := (mem_facesWith.1 (by rw [hf]; simp : fj ∈ facesWith [[0, 1, 2], [0, 1, 3]] a b)).1
      obtain rfl : fi = 0 := by omega
      obtain rfl : fj = 1 := by omega
      rw [m3]
      simp [hd]
  have : m = -1 := le_antisymm hle hge
  rw [this] at m1
  exact m1

/-- Cases: all points of a sharp tetrahedron are corners; two tetrahedra that share one point and are otherwise smooth have a corner there if faces meet sharply. -/
example : (extractFeatures 4 [[0, 1, 2], [0, 3, 1], [1, 3, 2], [0, 2, 3]] (fun _ _ _ => true) (fun _ _ _ => false) fun _ _ => false).map ModelFeatures.corners = some [0, 1, 2, 3] ∧
    (extractFeatures 7 [[0, 1, 2], [0, 3, 1], [1, 3, 2], [0, 2, 3], [0, 4, 5], [0, 6, 4], [4, 6, 5], [0, 5, 6]] (fun _ _ _ => false) (fun _ _ _ => false) fun i j => i < 4 && 4 ≤ j).map ModelFeatures.corners = some [0] := by
  decide

end VoroCrust
