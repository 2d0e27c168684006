import Verif.Model.Mesh
import Mathlib.Data.List.Count
import Mathlib.Data.List.Basic
import Mathlib.Data.List.Forall2
import Mathlib.Tactic.SplitIfs
import Mathlib.Tactic.Ring

/-! # Lemmas about the mesh connectivity model -/

set_option linter.unusedSimpArgs false

namespace VoroCrust

/-- Every face is a triangle on the points `0..n-1`. -/
def TriMesh (n : Nat) (faces : List (List Nat)) : Prop := ∀ f ∈ faces, f.length = 3 ∧ ∀ c ∈ f, c < n

/-- No face repeats a corner. -/
def SimpleFaces (faces : List (List Nat)) : Prop := ∀ f ∈ faces, f.Nodup

theorem tri_eq {f : List Nat} (h : f.length = 3) : ∃ a b c, f = [a, b, c] := by
  match f, h with
  | [a, b, c], _ => exact ⟨a, b, c, rfl⟩

theorem TriMesh.cons {n : Nat} {f : List Nat} {fs : List (List Nat)} (h : TriMesh n (f :: fs)) :
    (f.length = 3 ∧ ∀ c ∈ f, c < n) ∧ TriMesh n fs :=
  ⟨h f (by simp), fun g hg => h g (by simp [hg])⟩

theorem countCorners_eq (n : Nat) (cs : List Nat) (cnt : Nat → Nat) (h : ∀ c ∈ cs, c < n) :
    countCorners n cs cnt = some (fun p => cnt p + cs.count p) := by
  induction cs generalizing cnt with
  | nil => simp [countCorners]
  | cons c cs ih =>
    rw [countCorners, if_pos (h c (by simp)), ih _ (fun d hd => h d (by simp [hd]))]
    congr 1; funext p
    rw [List.count_cons]
    by_cases hp : p = c
    · subst hp; simp; omega
    · have : ¬ c = p := fun e => hp e.symm
      simp [hp, this]

theorem corners3_tri {f : List Nat} (h : f.length = 3) : corners3 f = some f := by
  obtain ⟨a, b, c, rfl⟩ := tri_eq h; rfl

theorem countFaces_eq (n : Nat) (faces : List (List Nat)) (cnt : Nat → Nat) (h : TriMesh n faces) :
    countFaces n faces cnt = some (fun p => cnt p + faces.flatten.count p) := by
  induction faces generalizing cnt with
  | nil => simp [countFaces]
  | cons f fs ih =>
    obtain ⟨⟨h1, h2⟩, h3⟩ := h.cons
    rw [countFaces, corners3_tri h1]
    simp only [countCorners_eq n f cnt h2, ih _ h3]
    congr 1; funext p
    rw [List.flatten_cons, List.count_append]; omega

theorem fillCorners_eq (n k : Nat) (cs : List Nat) (pf : Nat → FaceBuf) (h : ∀ c ∈ cs, c < n)
    (hr : ∀ p, (pf p).items.length + cs.count p ≤ (pf p).cap) :
    fillCorners n k cs pf = some (fun p => { cap := (pf p).cap, items := (pf p).items ++ List.replicate (cs.count p) k }) := by
  induction cs generalizing pf with
  | nil => simp [fillCorners]
  | cons c cs ih =>
    rw [fillCorners, if_pos (h c (by simp))]
    have hc := hr c
    rw [List.count_cons_self] at hc
    have : (pf c).push k = some { cap := (pf c).cap, items := (pf c).items ++ [k] } := by
      rw [FaceBuf.push, if_pos (by omega)]
    rw [this]
    simp only
    rw [ih _ (fun d hd => h d (by simp [hd]))]
    · congr 1; funext p
      by_cases hp : p = c
      · subst hp
        simp only [if_true, List.count_cons_self]
        rw [List.append_assoc, List.replicate_succ]; rfl
      · have : ¬ c = p := fun e => hp e.symm
        simp [hp, this, List.count_cons]
    · intro p
      have hp' := hr p
      by_cases hp : p = c
      · subst hp; simp; omega
      · have : ¬ c = p := fun e => hp e.symm
        simp [List.count_cons, hp, this] at hp' ⊢
        exact hp'

/-- Incidence list of `p` for the faces `fs` numbered from `k`. -/
def inc (k : Nat) : List (List Nat) → Nat → List Nat
  | [], _ => []
  | f :: fs, p => List.replicate (f.count p) k ++ inc (k + 1) fs p

theorem inc_length (k : Nat) (fs : List (List Nat)) (p : Nat) : (inc k fs p).length = fs.flatten.count p := by
  induction fs generalizing k with
  | nil => simp [inc]
  | cons f fs ih => simp [inc, ih, List.count_append]

theorem fillFaces_eq (n k : Nat) (fs : List (List Nat)) (pf : Nat → FaceBuf) (h : TriMesh n fs)
    (hr : ∀ p, (pf p).items.length + fs.flatten.count p ≤ (pf p).cap) :
    fillFaces n k fs pf = some (fun p => { cap := (pf p).cap, items := (pf p).items ++ inc k fs p }) := by
  induction fs generalizing k pf with
  | nil => simp [fillFaces, inc]
  | cons f fs ih =>
    obtain ⟨⟨h1, h2⟩, h3⟩ := h.cons
    have hr' : ∀ p, (pf p).items.length + (f.count p + fs.flatten.count p) ≤ (pf p).cap := by
      intro p; have := hr p; rw [List.flatten_cons, List.count_append] at this; exact this
    rw [fillFaces, corners3_tri h1]
    simp only
    rw [fillCorners_eq n k f pf h2 (fun p => by have := hr' p; omega)]
    simp only
    rw [ih _ _ h3]
    · simp [inc]
    · intro p; have := hr' p; simp; omega

theorem buildPointFaces_eq (n : Nat) (faces : List (List Nat)) (h : TriMesh n faces) :
    buildPointFaces n faces = some (fun p => { cap := faces.flatten.count p, items := inc 0 faces p }) := by
  rw [buildPointFaces, countFaces_eq n faces _ h]
  simp only
  rw [fillFaces_eq n 0 faces _ h (by simp)]
  simp

theorem countCorners_none (n : Nat) (cs : List Nat) (cnt : Nat → Nat) (h : ∃ c ∈ cs, ¬ c < n) : countCorners n cs cnt = none := by
  induction cs generalizing cnt with
  | nil => simp at h
  | cons c cs ih =>
    rw [countCorners]
    split_ifs with hc
    · refine ih _ ?_
      obtain ⟨d, hd, hd'⟩ := h
      rcases List.mem_cons.1 hd with rfl | hd
      · exact absurd hc hd'
      · exact ⟨d, hd, hd'⟩
    · rfl

theorem countFaces_none (n : Nat) (faces : List (List Nat)) (cnt : Nat → Nat) (h : ∃ f ∈ faces, f.length = 3 ∧ ∃ c ∈ f, ¬ c < n) :
    countFaces n faces cnt = none := by
  induction faces generalizing cnt with
  | nil => simp at h
  | cons f fs ih =>
    obtain ⟨g, hg, h3, hc⟩ := h
    rw [countFaces]
    rcases List.mem_cons.1 hg with rfl | hg
    · rw [corners3_tri h3]
      simp only [countCorners_none n g cnt hc]
    · cases corners3 f with
      | none => rfl
      | some cs =>
        simp only
        cases countCorners n cs cnt with
        | none => rfl
        | some c' => exact ih c' ⟨g, hg, h3, hc⟩

/-! ### Incidence lists -/

theorem inc_ge (k : Nat) (fs : List (List Nat)) (p : Nat) : ∀ x ∈ inc k fs p, k ≤ x ∧ x < k + fs.length := by
  induction fs generalizing k with
  | nil => simp [inc]
  | cons f fs ih =>
    intro x hx
    rw [inc, List.mem_append] at hx
    simp only [List.length_cons]
    rcases hx with hx | hx
    · have := (List.mem_replicate.1 hx).2; omega
    · have := ih (k + 1) x hx; omega

theorem inc_sorted (k : Nat) (fs : List (List Nat)) (p : Nat) : (inc k fs p).Pairwise (· ≤ ·) := by
  induction fs generalizing k with
  | nil => simp [inc]
  | cons f fs ih =>
    rw [inc, List.pairwise_append]
    refine ⟨by simp [List.pairwise_replicate], ih _, ?_⟩
    intro a ha b hb
    have := (List.mem_replicate.1 ha).2
    have := inc_ge _ _ _ b hb
    omega

theorem inc_count (k : Nat) (fs : List (List Nat)) (p x : Nat) :
    (inc k fs p).count (k + x) = (fs.getD x []).count p := by
  induction fs generalizing k x with
  | nil => simp [inc]
  | cons f fs ih =>
    rw [inc, List.count_append, List.count_replicate]
    cases x with
    | zero =>
      have : (inc (k + 1) fs p).count k = 0 := by
        rw [List.count_eq_zero]; intro hm; have := inc_ge _ _ _ _ hm; omega
      simp [this]
    | succ x =>
      have e : k + (x + 1) = k + 1 + x := by omega
      have hne : ¬ (k == k + 1 + x) = true := by simp; omega
      rw [e, ih (k + 1) x]
      simp [hne]

theorem inc_mem (k : Nat) (fs : List (List Nat)) (p x : Nat) : k + x ∈ inc k fs p ↔ p ∈ fs.getD x [] := by
  rw [← List.count_pos_iff, inc_count, List.count_pos_iff]

/-! ### Edge counting -/

/-- Hits of the undirected pair `i, j` among the directed edges of a face. -/
def hits (i j : Nat) (f : List Nat) : Nat := ((faceEdges f).map (edgeHit i j)).sum

theorem countEdgeFaces_inc (faces : List (List Nat)) (i j : Nat) (pre fs : List (List Nat)) (e : faces = pre ++ fs) (acc : Nat) :
    countEdgeFaces faces i j (inc pre.length fs i) acc = some (acc + (fs.map (fun f => f.count i * hits i j f)).sum) := by
  induction fs generalizing pre acc with
  | nil => simp [inc, countEdgeFaces]
  | cons f fs ih =>
    have hk : faces[pre.length]? = some f := by rw [e]; simp
    have hrep : ∀ m acc rest, countEdgeFaces faces i j (List.replicate m pre.length ++ rest) acc =
        countEdgeFaces faces i j rest (acc + m * hits i j f) := by
      intro m
      induction m with
      | zero => simp
      | succ m ihm =>
        intro acc rest
        rw [List.replicate_succ, List.cons_append, countEdgeFaces, hk]
        simp only
        rw [ihm]
        congr 1
        rw [Nat.succ_mul]
        simp only [hits]; omega
    rw [inc, hrep]
    have := ih (pre ++ [f]) (by rw [e]; simp) (acc + f.count i * hits i j f)
    rw [List.length_append, List.length_singleton] at this
    rw [this, List.map_cons, List.sum_cons]
    congr 1; omega

theorem numEdgeFaces_eq {n : Nat} {faces : List (List Nat)} {pf : Nat → FaceBuf} (h : TriMesh n faces) (hb : buildPointFaces n faces = some pf)
    {i : Nat} (hi : i < n) (j : Nat) :
    numEdgeFaces n faces pf i j = some ((faces.map (fun f => f.count i * hits i j f)).sum) := by
  rw [buildPointFaces_eq n faces h] at hb
  cases hb
  rw [numEdgeFaces, if_pos hi]
  simpa using countEdgeFaces_inc faces i j [] faces rfl 0

theorem hits_tri (i j a b c : Nat) : hits i j [a, b, c] = edgeHit i j (a, b) + (edgeHit i j (b, c) + edgeHit i j (c, a)) := by
  simp [hits, faceEdges, edgesFrom]

/-- In a triangle without repeated corners each pair of distinct corners is hit once. -/
theorem hits_simple {f : List Nat} (h3 : f.length = 3) (hn : f.Nodup) {i j : Nat} (hij : i ≠ j) :
    hits i j f = if i ∈ f ∧ j ∈ f then 1 else 0 := by
  obtain ⟨a, b, c, rfl⟩ := tri_eq h3
  simp only [List.nodup_cons, List.mem_cons, List.not_mem_nil, or_false, not_or] at hn
  rw [hits_tri]
  simp only [edgeHit, List.mem_cons, List.not_mem_nil, or_false]
  obtain ⟨⟨h1, h2⟩, h3, _⟩ := hn
  by_cases ea : a = i
  · subst ea
    by_cases eb : b = j
    · subst eb; simp [hij, h1, h2, h3, Ne.symm h1, Ne.symm h2, Ne.symm h3, hij.symm]
    · by_cases ec : c = j
      · subst ec; simp [h1, h2, h3, Ne.symm h1, Ne.symm h2, Ne.symm h3]
      · simp [hij, eb, ec, Ne.symm eb, Ne.symm ec, hij.symm]
  · by_cases eb : b = i
    · subst eb
      by_cases ec : c = j
      · subst ec; simp [h1, h2, h3, Ne.symm h1, Ne.symm h2, Ne.symm h3]
      · by_cases ea' : a = j
        · subst ea'; simp [h1, h2, h3, Ne.symm h1, Ne.symm h2, Ne.symm h3]
        · simp [hij, hij.symm, ea, ec, ea', Ne.symm ec, Ne.symm ea']
    · by_cases ec : c = i
      · subst ec
        by_cases ea' : a = j
        · subst ea'; simp [h1, h2, h3, Ne.symm h1, Ne.symm h2, Ne.symm h3]
        · by_cases eb' : b = j
          · subst eb'; simp [h1, h2, h3, Ne.symm h1, Ne.symm h2, Ne.symm h3]
          · simp [hij, hij.symm, ea', eb', Ne.symm ea', Ne.symm eb']
      · simp [ea, eb, ec, Ne.symm ea, Ne.symm eb, Ne.symm ec]

theorem any_edgeMatch_simple {f : List Nat} (h3 : f.length = 3) {i j : Nat} (hij : i ≠ j) :
    (faceEdges f).any (edgeMatch i j) = true ↔ i ∈ f ∧ j ∈ f := by
  obtain ⟨a, b, c, rfl⟩ := tri_eq h3
  simp only [faceEdges, edgesFrom, List.any_cons, List.any_nil, edgeMatch, Bool.or_false, Bool.or_eq_true, Bool.and_eq_true, beq_iff_eq,
    List.mem_cons, List.not_mem_nil, or_false]
  constructor
  · rintro ((⟨rfl, rfl⟩ | ⟨rfl, rfl⟩) | (⟨rfl, rfl⟩ | ⟨rfl, rfl⟩) | (⟨rfl, rfl⟩ | ⟨rfl, rfl⟩)) <;> simp
  · rintro ⟨rfl | rfl | rfl, rfl | rfl | rfl⟩ <;> simp at hij ⊢

/-- Number of faces having both `i` and `j` as corners. -/
def sharedBy (faces : List (List Nat)) (i j : Nat) : Nat := faces.countP (fun f => decide (i ∈ f) && decide (j ∈ f))

theorem numEdgeFaces_simple {n : Nat} {faces : List (List Nat)} {pf : Nat → FaceBuf} (h : TriMesh n faces) (hs : SimpleFaces faces)
    (hb : buildPointFaces n faces = some pf) {i j : Nat} (hi : i < n) (hij : i ≠ j) :
    numEdgeFaces n faces pf i j = some (sharedBy faces i j) := by
  rw [numEdgeFaces_eq h hb hi j]
  congr 1
  clear hb
  induction faces with
  | nil => rfl
  | cons f fs ih =>
    obtain ⟨⟨h1, h2⟩, h3⟩ := h.cons
    have hn := hs f (by simp)
    rw [List.map_cons, List.sum_cons, ih h3 (fun g hg => hs g (by simp [hg])), hits_simple h1 hn hij, hn.count]
    unfold sharedBy
    rw [List.countP_cons]
    by_cases hi : i ∈ f <;> by_cases hj : j ∈ f <;> simp [hi, hj]
    omega

/-- Without repeated corners no face contributes to the pair `(i, i)`. -/
theorem numEdgeFaces_self {n : Nat} {faces : List (List Nat)} {pf : Nat → FaceBuf} (h : TriMesh n faces) (hs : SimpleFaces faces)
    (hb : buildPointFaces n faces = some pf) {i : Nat} (hi : i < n) :
    numEdgeFaces n faces pf i i = some 0 := by
  rw [numEdgeFaces_eq h hb hi i]
  congr 1
  clear hb
  induction faces with
  | nil => rfl
  | cons f fs ih =>
    obtain ⟨⟨h1, h2⟩, h3⟩ := h.cons
    have hn := hs f (by simp)
    rw [List.map_cons, List.sum_cons, ih h3 (fun g hg => hs g (by simp [hg]))]
    obtain ⟨a, b, c, rfl⟩ := tri_eq h1
    simp only [List.nodup_cons, List.mem_cons, List.not_mem_nil, or_false, not_or] at hn
    obtain ⟨⟨q1, q2⟩, q3, _⟩ := hn
    rw [hits_tri]
    have z : ∀ x y : Nat, x ≠ y → edgeHit i i (x, y) = 0 := by
      intro x y hxy
      have : ¬ (x = i ∧ y = i) := by rintro ⟨rfl, rfl⟩; exact hxy rfl
      simp [edgeHit, this]
    rw [z a b q1, z b c q3, z c a (Ne.symm q2)]; simp

/-- Indices of the faces having both `i` and `j` as corners, ascending. -/
def facesWith (faces : List (List Nat)) (i j : Nat) : List Nat :=
  (List.range faces.length).filter (fun k => decide (i ∈ faces.getD k []) && decide (j ∈ faces.getD k []))

theorem facesWith_length (faces : List (List Nat)) (i j : Nat) : (facesWith faces i j).length = sharedBy faces i j := by
  unfold facesWith sharedBy
  have : faces = (List.range faces.length).map (fun k => faces.getD k []) := by
    apply List.ext_getElem
    · simp
    · intro k h1 h2
      simp [List.getD, List.getElem?_eq_getElem h1]
  conv_rhs => rw [this]
  rw [List.countP_map, List.countP_eq_length_filter]
  rfl

theorem inc_simple (k : Nat) (fs : List (List Nat)) (hs : SimpleFaces fs) (p : Nat) :
    inc k fs p = ((List.range fs.length).filter (fun x => decide (p ∈ fs.getD x []))).map (k + ·) := by
  induction fs generalizing k with
  | nil => simp [inc]
  | cons f fs ih =>
    have hn := hs f (by simp)
    rw [inc, ih _ (fun g hg => hs g (by simp [hg])), List.length_cons, List.range_succ_eq_map, List.filter_cons, hn.count]
    have hm : (List.filter (fun x => decide (p ∈ (f :: fs).getD x [])) (List.map Nat.succ (List.range fs.length))) =
        (List.filter (fun x => decide (p ∈ fs.getD x [])) (List.range fs.length)).map Nat.succ := by
      rw [List.filter_map]; rfl
    rw [hm]
    by_cases hp : p ∈ f
    · simp only [hp, if_true, List.replicate_one, List.singleton_append, List.getD_cons_zero, decide_true, List.map_cons, List.map_map, Nat.add_zero]
      congr 1
      apply List.map_congr_left; intro x _; simp; omega
    · simp only [hp, if_false, List.replicate_zero, List.nil_append, List.getD_cons_zero, decide_false, Bool.false_eq_true, List.map_map]
      apply List.map_congr_left; intro x _; simp; omega

theorem fillEdgeFaces_eq (faces : List (List Nat)) (i j : Nat) (ks : List Nat) (b : FaceBuf)
    (hk : ∀ k ∈ ks, k < faces.length)
    (hr : b.items.length + (ks.filter (fun k => (faceEdges (faces.getD k [])).any (edgeMatch i j))).length ≤ b.cap) :
    fillEdgeFaces faces i j ks b = some { b with items := b.items ++ ks.filter (fun k => (faceEdges (faces.getD k [])).any (edgeMatch i j)) } := by
  induction ks generalizing b with
  | nil => simp [fillEdgeFaces]
  | cons k ks ih =>
    have hk0 := hk k (by simp)
    have hg : faces[k]? = some (faces.getD k []) := by simp [List.getD, List.getElem?_eq_getElem hk0]
    rw [fillEdgeFaces, hg]
    simp only
    by_cases hm : (faceEdges (faces.getD k [])).any (edgeMatch i j) = true
    · rw [if_pos hm]
      rw [List.filter_cons, if_pos hm, List.length_cons] at hr
      have : b.push k = some { cap := b.cap, items := b.items ++ [k] } := by
        rw [FaceBuf.push, if_pos (by omega)]
      rw [this]
      simp only
      rw [ih _ (fun x hx => hk x (by simp [hx])) (by rw [List.length_append, List.length_singleton]; show _ ≤ b.cap; omega), List.filter_cons, if_pos hm]
      simp
    · rw [if_neg hm]
      rw [List.filter_cons, if_neg hm] at hr
      rw [ih _ (fun x hx => hk x (by simp [hx])) hr, List.filter_cons, if_neg hm]

theorem getD_mem {faces : List (List Nat)} {k : Nat} (h : k < faces.length) : faces.getD k [] ∈ faces := by
  simp [List.getD, List.getElem?_eq_getElem h]

theorem edgeFaces_simple {n : Nat} {faces : List (List Nat)} {pf : Nat → FaceBuf} (h : TriMesh n faces) (hs : SimpleFaces faces)
    (hb : buildPointFaces n faces = some pf) {i j : Nat} (hi : i < n) (hij : i ≠ j) :
    edgeFaces n faces pf i j = some { cap := sharedBy faces i j, items := facesWith faces i j } := by
  have hitems : (pf i).items = (List.range faces.length).filter (fun x => decide (i ∈ faces.getD x [])) := by
    rw [buildPointFaces_eq n faces h] at hb
    cases hb
    show inc 0 faces i = _
    rw [inc_simple 0 faces hs i]; simp
  have hf : ((pf i).items.filter (fun k => (faceEdges (faces.getD k [])).any (edgeMatch i j))) = facesWith faces i j := by
    rw [hitems, List.filter_filter, facesWith]
    apply List.filter_congr
    intro k hk
    have hk' := List.mem_range.1 hk
    have := any_edgeMatch_simple (h _ (getD_mem hk')).1 hij
    rw [Bool.eq_iff_iff]
    simp only [Bool.and_eq_true, decide_eq_true_eq, this]
    constructor
    · rintro ⟨⟨a, b⟩, c⟩; exact ⟨a, b⟩
    · rintro ⟨a, b⟩; exact ⟨⟨a, b⟩, a⟩
  rw [edgeFaces, numEdgeFaces_simple h hs hb hi hij]
  simp only
  rw [fillEdgeFaces_eq]
  · rw [hf]; simp
  · intro k hk
    rw [hitems] at hk
    exact List.mem_range.1 (List.mem_filter.1 hk).1
  · rw [hf, facesWith_length]; simp

end VoroCrust
