import Verif.Model.RepairMesh
import Verif.Props.Mesh

/-!
# Properties of the check of a surface mesh in `MeshingPolyMesh` (C125)
-/

namespace VoroCrust

/-! ## Specification -/

/-- An open edge of the mesh, with its ends in either order: two different corners of a face that are together in that face only. -/
def OpenEdge (faces : List (List Nat)) (a b : Nat) : Prop := (∃ f ∈ faces, a ∈ f ∧ b ∈ f) ∧ a ≠ b ∧ faces.countP (fun f => decide (a ∈ f) && decide (b ∈ f)) = 1

/-! ## Lemmas -/

/-- What holds of the marks, the number and the flags, compared with the radii `r` at the beginning. -/
structure RepairMarks (ns ne nc : Nat) (r : Nat → ℝ) (fs fe fc : Bool) (s : RepairState) : Prop where
  le : ∀ q : Nat, s.radius q ≤ r q
  outside : ∀ q : Nat, ns + ne + nc ≤ q → s.radius q = r q
  shrunk : ∀ q : Nat, s.shrunk q = true ↔ s.radius q < r q
  num : s.num = (List.range (ns + ne + nc)).countP s.shrunk
  surf : s.surfaceShrunk = true ↔ fs = true ∨ ∃ q : Nat, q < ns ∧ s.radius q < r q
  edge : s.edgeShrunk = true ↔ fe = true ∨ ∃ q : Nat, ns ≤ q ∧ q < ns + ne + nc ∧ s.radius q < r q
  corner : s.cornerShrunk = fc

theorem countP_mark (m : Nat → Bool) (p n : Nat) (hp : p < n) (hm : m p = false) :
    (List.range n).countP (fun q => if q = p then true else m q) = (List.range n).countP m + 1 := by
  induction n with
  | zero => omega
  | succ n ih =>
    rw [List.range_succ, List.countP_append, List.countP_append, List.countP_singleton, List.countP_singleton]
    by_cases h : p = n
    · subst h
      have e : (List.range p).countP (fun q => if q = p then true else m q) = (List.range p).countP m := by
        apply List.countP_congr
        intro q hq
        rw [if_neg (by have := List.mem_range.1 hq; omega)]
      rw [e, if_pos rfl, hm]
      simp
    · rw [ih (by omega), if_neg (show ¬ n = p by omega)]
      omega

theorem repairPoint_radius (ns ne nc : Nat) (rmax : ℝ) (p : Nat) (s : RepairState) (hp : p < ns + ne + nc) (q : Nat) :
    (repairPoint ns ne nc rmax p s).radius q = if q = p then min (s.radius q) rmax else s.radius q := by
  unfold repairPoint
  rw [if_pos hp]
  by_cases h : s.radius p > rmax
  · rw [if_pos h]
    by_cases hq : q = p
    · simp only [if_pos hq]
      rw [hq, min_eq_right h.le]
    · simp only [if_neg hq]
  · rw [if_neg h]
    by_cases hq : q = p
    · rw [if_pos hq, hq, min_eq_left (not_lt.1 h)]
    · rw [if_neg hq]

theorem repairPoint_tight (ns ne nc : Nat) (rmax : ℝ) (p : Nat) (s : RepairState) : (repairPoint ns ne nc rmax p s).tight = s.tight := by
  unfold repairPoint
  split_ifs <;> rfl

theorem repairPoint_marks (ns ne nc : Nat) (r : Nat → ℝ) (fs fe fc : Bool) (rmax : ℝ) (p : Nat) (s : RepairState) (hp : p < ns + ne + nc) (h : RepairMarks ns ne nc r fs fe fc s) :
    RepairMarks ns ne nc r fs fe fc (repairPoint ns ne nc rmax p s) := by
  unfold repairPoint
  rw [if_pos hp]
  by_cases hr : s.radius p > rmax
  · rw [if_pos hr]
    have hlt : rmax < r p := lt_of_lt_of_le hr (h.le p)
    refine ⟨?_, ?_, ?_, ?_, ?_, ?_, h.corner⟩
    · intro q
      by_cases hq : q = p
      · simp only [if_pos hq]; rw [hq]; exact hlt.le
      · simp only [if_neg hq]; exact h.le q
    · intro q hq
      have : q ≠ p := by omega
      simp only [if_neg this]; exact h.outside q hq
    · intro q
      by_cases hq : q = p
      · simp only [if_pos hq]; rw [hq]; exact ⟨fun _ => hlt, fun _ => trivial⟩
      · simp only [if_neg hq]; exact h.shrunk q
    · show (if s.shrunk p then s.num else s.num + 1) = (List.range (ns + ne + nc)).countP (fun q => if q = p then true else s.shrunk q)
      by_cases hm : s.shrunk p = true
      · rw [if_pos hm, h.num]
        apply List.countP_congr
        intro q _
        by_cases hq : q = p
        · rw [if_pos hq, hq, hm]
        · rw [if_neg hq]
      · rw [if_neg hm, countP_mark s.shrunk p _ hp (by simpa using hm), h.num]
    · show (if p < ns then true else s.surfaceShrunk) = true ↔ fs = true ∨ ∃ q : Nat, q < ns ∧ (if q = p then rmax else s.radius q) < r q
      by_cases hn : p < ns
      · rw [if_pos hn]
        exact ⟨fun _ => Or.inr ⟨p, hn, by rw [if_pos rfl]; exact hlt⟩, fun _ => rfl⟩
      · rw [if_neg hn, h.surf]
        apply or_congr Iff.rfl
        apply exists_congr
        intro q
        apply and_congr_right
        intro hq
        rw [if_neg (show ¬ q = p by omega)]
    · show (if p < ns then s.edgeShrunk else if p < ns + ne then true else true) = true ↔ fe = true ∨ ∃ q : Nat, ns ≤ q ∧ q < ns + ne + nc ∧ (if q = p then rmax else s.radius q) < r q
      by_cases hn : p < ns
      · rw [if_pos hn, h.edge]
        apply or_congr Iff.rfl
        apply exists_congr
        intro q
        apply and_congr_right
        intro hq
        rw [if_neg (show ¬ q = p by omega)]
      · rw [if_neg hn, ite_self]
        exact ⟨fun _ => Or.inr ⟨p, by omega, hp, by rw [if_pos rfl]; exact hlt⟩, fun _ => rfl⟩
  · rw [if_neg hr]
    exact h

/-- The radii after the open edges `E` have been visited. -/
structure RepairRadii (E : List (Nat × Nat)) (dist : Nat → Nat → ℝ) (r : Nat → ℝ) (s : RepairState) : Prop where
  small : ∀ e ∈ E, s.radius e.1 ≤ 0.49 * dist e.1 e.2 ∧ s.radius e.2 ≤ 0.49 * dist e.1 e.2
  source : ∀ q : Nat, s.radius q = r q ∨ ∃ e ∈ E, (q = e.1 ∨ q = e.2) ∧ s.radius q = 0.49 * dist e.1 e.2
  tight : s.tight = true ↔ E = []

theorem repairEdge_spec {ns ne nc : Nat} {faces : List (List Nat)} {pf : Nat → FaceBuf} (h : TriMesh (ns + ne + nc) faces) (hs : SimpleFaces faces) (hb : buildPointFaces (ns + ne + nc) faces = some pf)
    (dist : Nat → Nat → ℝ) (r : Nat → ℝ) (fs fe fc : Bool) (E : List (Nat × Nat)) (e : Nat × Nat) (s : RepairState) (h1 : e.1 < ns + ne + nc) (h2 : e.2 < ns + ne + nc) (hne : e.1 ≠ e.2)
    (hm : RepairMarks ns ne nc r fs fe fc s) (hr : RepairRadii E dist r s) :
    ∃ s', repairEdge ns ne nc faces pf dist e s = some s' ∧ RepairMarks ns ne nc r fs fe fc s' ∧ RepairRadii (if sharedBy faces e.1 e.2 = 1 then E ++ [e] else E) dist r s' := by
  unfold repairEdge
  rw [numEdgeFaces_simple h hs hb h1 hne]
  by_cases hc : sharedBy faces e.1 e.2 = 1
  · simp only [if_pos hc]
    refine ⟨_, rfl, ?_, ?_⟩
    · refine repairPoint_marks ns ne nc r fs fe fc _ e.2 _ h2 (repairPoint_marks ns ne nc r fs fe fc _ e.1 _ h1 ?_)
      exact ⟨hm.le, hm.outside, hm.shrunk, hm.num, hm.surf, hm.edge, hm.corner⟩
    · have rad : ∀ q : Nat, (repairPoint ns ne nc (0.49 * dist e.1 e.2) e.2 (repairPoint ns ne nc (0.49 * dist e.1 e.2) e.1 { s with tight := false })).radius q =
          if q = e.1 ∨ q = e.2 then min (s.radius q) (0.49 * dist e.1 e.2) else s.radius q := by
        intro q
        rw [repairPoint_radius _ _ _ _ _ _ h2, repairPoint_radius _ _ _ _ _ _ h1]
        by_cases q1 : q = e.1
        · have q2 : ¬ q = e.2 := fun h => hne (q1.symm.trans h)
          rw [if_neg q2, if_pos q1, if_pos (Or.inl q1)]
        · by_cases q2 : q = e.2
          · rw [if_pos q2, if_neg q1, if_pos (Or.inr q2)]
          · rw [if_neg q2, if_neg q1, if_neg (by tauto)]
      have le : ∀ q : Nat, (repairPoint ns ne nc (0.49 * dist e.1 e.2) e.2 (repairPoint ns ne nc (0.49 * dist e.1 e.2) e.1 { s with tight := false })).radius q ≤ s.radius q := by
        intro q
        rw [rad q]
        split_ifs
        · exact min_le_left _ _
        · exact le_refl _
      refine ⟨?_, ?_, ?_⟩
      · intro e' he'
        rcases List.mem_append.1 he' with he' | he'
        · exact ⟨le_trans (le _) (hr.small e' he').1, le_trans (le _) (hr.small e' he').2⟩
        · rw [List.mem_singleton] at he'
          rw [he', rad, rad, if_pos (Or.inl rfl), if_pos (Or.inr rfl)]
          exact ⟨min_le_right _ _, min_le_right _ _⟩
      · intro q
        rw [rad q]
        by_cases hq : q = e.1 ∨ q = e.2
        · rw [if_pos hq]
          rcases le_total (s.radius q) (0.49 * dist e.1 e.2) with hle | hle
          · rw [min_eq_left hle]
            rcases hr.source q with h' | ⟨e', he', h''⟩
            · exact Or.inl h'
            · exact Or.inr ⟨e', List.mem_append_left _ he', h''⟩
          · rw [min_eq_right hle]
            exact Or.inr ⟨e, List.mem_append_right _ (List.mem_singleton.2 rfl), hq, rfl⟩
        · rw [if_neg hq]
          rcases hr.source q with h' | ⟨e', he', h''⟩
          · exact Or.inl h'
          · exact Or.inr ⟨e', List.mem_append_left _ he', h''⟩
      · rw [repairPoint_tight, repairPoint_tight]
        simp
  · simp only [if_neg hc]
    exact ⟨s, rfl, hm, hr⟩

theorem repairEdges_spec {ns ne nc : Nat} {faces : List (List Nat)} {pf : Nat → FaceBuf} (h : TriMesh (ns + ne + nc) faces) (hs : SimpleFaces faces) (hb : buildPointFaces (ns + ne + nc) faces = some pf)
    (dist : Nat → Nat → ℝ) (r : Nat → ℝ) (fs fe fc : Bool) (es : List (Nat × Nat)) : ∀ (E : List (Nat × Nat)) (s : RepairState), (∀ e ∈ es, e.1 < ns + ne + nc ∧ e.2 < ns + ne + nc ∧ e.1 ≠ e.2) →
    RepairMarks ns ne nc r fs fe fc s → RepairRadii E dist r s →
    ∃ s', repairEdges ns ne nc faces pf dist es s = some s' ∧ RepairMarks ns ne nc r fs fe fc s' ∧ RepairRadii (E ++ es.filter fun e => decide (sharedBy faces e.1 e.2 = 1)) dist r s' := by
  induction es with
  | nil =>
    intro E s _ hm hr
    exact ⟨s, rfl, hm, by simpa using hr⟩
  | cons e es ih =>
    intro E s he hm hr
    obtain ⟨a1, a2, a3⟩ := he e (by simp)
    obtain ⟨s1, e1, m1, r1⟩ := repairEdge_spec h hs hb dist r fs fe fc E e s a1 a2 a3 hm hr
    obtain ⟨s2, e2, m2, r2⟩ := ih _ s1 (fun e' he' => he e' (List.mem_cons_of_mem _ he')) m1 r1
    refine ⟨s2, ?_, m2, ?_⟩
    · unfold repairEdges
      rw [e1]
      exact e2
    · by_cases hc : sharedBy faces e.1 e.2 = 1
      · rw [if_pos hc] at r2
        rw [List.filter_cons_of_pos (by simpa using hc)]
        simpa using r2
      · rw [if_neg hc] at r2
        rw [List.filter_cons_of_neg (by simpa using hc)]
        exact r2

theorem repairFaces_spec {ns ne nc : Nat} {faces : List (List Nat)} {pf : Nat → FaceBuf} (h : TriMesh (ns + ne + nc) faces) (hs : SimpleFaces faces) (hb : buildPointFaces (ns + ne + nc) faces = some pf)
    (dist : Nat → Nat → ℝ) (r : Nat → ℝ) (fs fe fc : Bool) (l : List (List Nat)) : ∀ (E : List (Nat × Nat)) (s : RepairState), (∀ f ∈ l, f ∈ faces) →
    RepairMarks ns ne nc r fs fe fc s → RepairRadii E dist r s →
    ∃ s', repairFaces ns ne nc faces pf dist l s = some s' ∧ RepairMarks ns ne nc r fs fe fc s' ∧ RepairRadii (E ++ (l.flatMap faceEdges).filter fun e => decide (sharedBy faces e.1 e.2 = 1)) dist r s' := by
  induction l with
  | nil =>
    intro E s _ hm hr
    exact ⟨s, rfl, hm, by simpa using hr⟩
  | cons f l ih =>
    intro E s hl hm hr
    have hf := hl f (by simp)
    obtain ⟨s1, e1, m1, r1⟩ := repairEdges_spec h hs hb dist r fs fe fc (faceEdges f) E s (by
      intro e he
      obtain ⟨a, b, c⟩ := (faceEdges_simple (h f hf).1 (hs f hf)).1 e he
      exact ⟨(h f hf).2 _ a, (h f hf).2 _ b, c⟩) hm hr
    obtain ⟨s2, e2, m2, r2⟩ := ih _ s1 (fun g hg => hl g (List.mem_cons_of_mem _ hg)) m1 r1
    refine ⟨s2, ?_, m2, ?_⟩
    · unfold repairFaces
      rw [edges3_tri (h f hf).1]
      simp only [e1]
      exact e2
    · rw [List.flatMap_cons, List.filter_append, ← List.append_assoc]
      exact r2

/-- The open edges that are visited are those of the mesh, in one direction or both. -/
theorem visited_open {n : Nat} {faces : List (List Nat)} (h : TriMesh n faces) (hs : SimpleFaces faces) :
    (∀ e ∈ (faces.flatMap faceEdges).filter fun e => decide (sharedBy faces e.1 e.2 = 1), OpenEdge faces e.1 e.2)
    ∧ ∀ a b : Nat, OpenEdge faces a b → (a, b) ∈ ((faces.flatMap faceEdges).filter fun e => decide (sharedBy faces e.1 e.2 = 1)) ∨ (b, a) ∈ (faces.flatMap faceEdges).filter fun e => decide (sharedBy faces e.1 e.2 = 1) := by
  constructor
  · intro e he
    rw [List.mem_filter, List.mem_flatMap] at he
    obtain ⟨⟨f, hf, hef⟩, hc⟩ := he
    obtain ⟨a, b, c⟩ := (faceEdges_simple (h f hf).1 (hs f hf)).1 e hef
    exact ⟨⟨f, hf, a, b⟩, c, of_decide_eq_true hc⟩
  · rintro a b ⟨⟨f, hf, ha, hb⟩, hab, hc⟩
    rcases (faceEdges_simple (h f hf).1 (hs f hf)).2 a ha b hb hab with he | he
    · left
      rw [List.mem_filter, List.mem_flatMap]
      exact ⟨⟨f, hf, he⟩, decide_eq_true hc⟩
    · right
      rw [List.mem_filter, List.mem_flatMap]
      refine ⟨⟨f, hf, he⟩, ?_⟩
      rw [decide_eq_true_iff, sharedBy_comm]
      exact hc

/-! ## C125 -/

/-- C125: for each mesh of triangles without repeated corners the check ends.  No radius grows; at each open edge both radii are at most 0.49 times its length, and a radius that changed is 0.49 times the length of an open edge at
its point; so no two spheres at an open edge overlap.  `num_shrunk` is the number of spheres that changed, and the mesh counts as watertight if there is no open edge, in which case nothing changes.
Missing: the flag of the corner spheres and the value returned (`C125_corner_flag_false`, `C125_returned_false`). -/
theorem C125_repair_partial (ns ne nc : Nat) (faces : List (List Nat)) (h : TriMesh (ns + ne + nc) faces) (hs : SimpleFaces faces) (dist : Nat → Nat → ℝ) (hd : ∀ a b : Nat, dist a b = dist b a) (r : Nat → ℝ) (fs fe fc : Bool) :
    ∃ b s, repairMesh ns ne nc faces dist r fs fe fc = some (b, s)
    ∧ (∀ q : Nat, s.radius q ≤ r q)
    ∧ (∀ a b : Nat, OpenEdge faces a b → s.radius a ≤ 0.49 * dist a b ∧ s.radius b ≤ 0.49 * dist a b)
    ∧ (∀ q : Nat, s.radius q = r q ∨ ∃ b : Nat, OpenEdge faces q b ∧ s.radius q = 0.49 * dist q b)
    ∧ (∀ a b : Nat, OpenEdge faces a b → 0 < dist a b → s.radius a + s.radius b < dist a b)
    ∧ s.num = (List.range (ns + ne + nc)).countP (fun q => @decide (s.radius q < r q) (Classical.propDecidable _))
    ∧ (s.tight = true ↔ ¬ ∃ a b : Nat, OpenEdge faces a b)
    ∧ (s.tight = true → s.radius = r)
    ∧ (s.surfaceShrunk = true ↔ fs = true ∨ ∃ q : Nat, q < ns ∧ s.radius q < r q)
    ∧ (s.edgeShrunk = true ↔ fe = true ∨ ∃ q : Nat, ns ≤ q ∧ q < ns + ne + nc ∧ s.radius q < r q) := by
  obtain ⟨pf, hb, _⟩ := C19_point_faces_transpose (ns + ne + nc) faces h
  obtain ⟨s, e, m, rr⟩ := repairFaces_spec h hs hb dist r fs fe fc faces []
    { radius := r, shrunk := fun _ => false, num := 0, tight := true, surfaceShrunk := fs, edgeShrunk := fe, cornerShrunk := fc } (fun _ hf => hf)
    ⟨fun _ => le_refl _, fun _ _ => rfl, fun q => by simp, by simp, by simp, by simp, rfl⟩ ⟨by simp, fun q => Or.inl rfl, by simp⟩
  rw [List.nil_append] at rr
  obtain ⟨v1, v2⟩ := visited_open h hs
  have small : ∀ a b : Nat, OpenEdge faces a b → s.radius a ≤ 0.49 * dist a b ∧ s.radius b ≤ 0.49 * dist a b := by
    intro a b hab
    rcases v2 a b hab with he | he
    · exact rr.small _ he
    · have := rr.small _ he
      rw [hd a b]
      exact ⟨this.2, this.1⟩
  have tight : s.tight = true ↔ ¬ ∃ a b : Nat, OpenEdge faces a b := by
    rw [rr.tight, List.eq_nil_iff_forall_not_mem]
    constructor
    · rintro hno ⟨a, b, hab⟩
      rcases v2 a b hab with he | he
      · exact hno _ he
      · exact hno _ he
    · intro hno e he
      exact hno ⟨e.1, e.2, v1 e he⟩
  have source : ∀ q : Nat, s.radius q = r q ∨ ∃ b : Nat, OpenEdge faces q b ∧ s.radius q = 0.49 * dist q b := by
    intro q
    rcases rr.source q with h' | ⟨e', he', hq, h''⟩
    · exact Or.inl h'
    · right
      have ho := v1 e' he'
      rcases hq with hq | hq
      · rw [hq] at h'' ⊢
        exact ⟨e'.2, ho, h''⟩
      · rw [hq] at h'' ⊢
        refine ⟨e'.1, ⟨?_, ho.2.1.symm, ?_⟩, by rw [hd]; exact h''⟩
        · obtain ⟨⟨f, hf, ha, hb'⟩, _⟩ := ho
          exact ⟨f, hf, hb', ha⟩
        · have := ho.2.2
          have c := sharedBy_comm faces e'.1 e'.2
          unfold sharedBy at c
          rw [c] at this
          exact this
  refine ⟨false, s, ?_, m.le, small, source, ?_, ?_, tight, ?_, m.surf, m.edge⟩
  · unfold repairMesh
    rw [hb]
    simp only [e]
  · intro a b hab hpos
    have := small a b hab
    norm_num at this
    linarith [this.1, this.2]
  · rw [m.num]
    apply List.countP_congr
    intro q _
    rw [decide_eq_true_iff]
    exact m.shrunk q
  · intro ht
    funext q
    rcases source q with h' | ⟨b, ho, _⟩
    · exact h'
    · exact absurd ⟨q, b, ho⟩ (tight.1 ht)

/-- C125 is false of the flag of the corner spheres: it is never changed.  The spheres of a lone triangle of three corner spheres shrink, and the edge spheres, of which there are none, are reported to have shrunk. -/
theorem C125_corner_flag_false (dist : Nat → Nat → ℝ) (hd : ∀ a b : Nat, dist a b = dist b a) (r : Nat → ℝ) (hr : 0.49 * dist 0 1 < r 0) :
    ∃ b s, repairMesh 0 0 3 [[0, 1, 2]] dist r false false false = some (b, s) ∧ s.radius 0 < r 0 ∧ s.cornerShrunk = false ∧ s.edgeShrunk = true := by
  have ht : TriMesh (0 + 0 + 3) [[0, 1, 2]] := by unfold TriMesh; decide
  have hs : SimpleFaces [[0, 1, 2]] := by unfold SimpleFaces; decide
  obtain ⟨b, s, e, _, small, _, _, _, _, _, _, hedge⟩ := C125_repair_partial 0 0 3 [[0, 1, 2]] ht hs dist hd r false false false
  have h01 : OpenEdge [[0, 1, 2]] 0 1 := ⟨⟨[0, 1, 2], by simp, by simp, by simp⟩, by decide, by decide⟩
  have hlt : s.radius 0 < r 0 := lt_of_le_of_lt (small 0 1 h01).1 hr
  refine ⟨b, s, e, hlt, ?_, hedge.2 (Or.inr ⟨0, by omega, by omega, hlt⟩)⟩
  obtain ⟨pf, hb, _⟩ := C19_point_faces_transpose (0 + 0 + 3) [[0, 1, 2]] ht
  obtain ⟨s', e', m, _⟩ := repairFaces_spec ht hs hb dist r false false false [[0, 1, 2]] []
    { radius := r, shrunk := fun _ => false, num := 0, tight := true, surfaceShrunk := false, edgeShrunk := false, cornerShrunk := false } (fun _ hf => hf)
    ⟨fun _ => le_refl _, fun _ _ => rfl, fun q => by simp, by simp, by simp, by simp, rfl⟩ ⟨by simp, fun q => Or.inl rfl, by simp⟩
  unfold repairMesh at e
  rw [hb] at e
  simp only [e'] at e
  have := Option.some.inj e
  rw [← (Prod.mk.inj this).2]
  exact m.corner

/-- C125 is false of the value returned: `valid_surface_mesh` returns `false` for the closed surface of a tetrahedron. -/
theorem C125_returned_false (dist : Nat → Nat → ℝ) (hd : ∀ a b : Nat, dist a b = dist b a) (r : Nat → ℝ) :
    ∃ s, repairMesh 4 0 0 [[0, 1, 2], [0, 3, 1], [1, 3, 2], [2, 3, 0]] dist r false false false = some (false, s) ∧ s.tight = true ∧ s.radius = r := by
  have ht : TriMesh (4 + 0 + 0) [[0, 1, 2], [0, 3, 1], [1, 3, 2], [2, 3, 0]] := by unfold TriMesh; decide
  have hs : SimpleFaces [[0, 1, 2], [0, 3, 1], [1, 3, 2], [2, 3, 0]] := by unfold SimpleFaces; decide
  obtain ⟨b, s, e, _, _, _, _, _, tight, same, _, _⟩ := C125_repair_partial 4 0 0 _ ht hs dist hd r false false false
  have hb : b = false := by
    have e2 := e
    unfold repairMesh at e2
    split at e2
    · cases e2
    · split at e2
      · cases e2
      · have := Option.some.inj e2
        exact (Prod.mk.inj this).1.symm
  have hti : s.tight = true := by
    rw [tight]
    rintro ⟨a, b, ⟨f, hf, ha, hb'⟩, hab, hc⟩
    have bad : ∀ f ∈ [[0, 1, 2], [0, 3, 1], [1, 3, 2], [2, 3, 0]], ∀ a ∈ f, ∀ b ∈ f, a ≠ b → ([[0, 1, 2], [0, 3, 1], [1, 3, 2], [2, 3, 0]] : List (List Nat)).countP (fun f => decide (a ∈ f) && decide (b ∈ f)) ≠ 1 := by decide
    exact bad f hf a ha b hb' hab hc
  rw [hb] at e
  exact ⟨s, e, hti, same hti⟩

/-- Not vacuous: two triangles with a common edge have open edges, and not that one. -/
example : OpenEdge [[0, 1, 2], [0, 2, 3]] 0 1 ∧ ¬ OpenEdge [[0, 1, 2], [0, 2, 3]] 0 2 := by
  refine ⟨⟨⟨[0, 1, 2], by simp, by simp, by simp⟩, by decide, by decide⟩, ?_⟩
  rintro ⟨_, _, h⟩
  revert h
  decide

end VoroCrust
