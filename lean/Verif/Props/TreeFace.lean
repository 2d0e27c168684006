import Verif.Model.TreeFace
import Mathlib.Tactic.Linarith
import Mathlib.Tactic.NormNum
import Mathlib.Analysis.Real.Pi.Bounds
import Mathlib.Data.List.Chain
import Mathlib.Data.List.Sort

/-!
# Properties of the construction of a Voronoi face in the tree (C130)
-/

namespace VoroCrust

variable {D : Type}

/-- `quicksort` keeps the seeds and orders their angles. -/
def FaceSorts (G : FaceGeom D) : Prop := ∀ l, (G.sort l).Perm l ∧ (G.sort l).Pairwise fun a b => G.ang a ≤ G.ang b

/-! ## The filter -/

theorem sameAngle_self (a : ℝ) : sameAngle a a := by
  left
  rw [sub_self, abs_zero]
  norm_num

theorem sameAngle_comm {a b : ℝ} (h : sameAngle a b) : sameAngle b a := by
  unfold sameAngle at *
  rw [abs_sub_comm b a]
  exact h

theorem gap_of_not_same {a b : ℝ} (h : ¬ sameAngle a b) (hab : b ≤ a) : b + 1e-5 ≤ a := by
  unfold sameAngle at h
  push Not at h
  have := h.1
  rw [abs_of_nonneg (by linarith)] at this
  linarith

theorem ringTail_sub (G : FaceGeom D) : ∀ (l : List Nat) (p : Nat), (ringTail G p l).Sublist l := by
  intro l
  induction l with
  | nil => intro p; exact List.Sublist.refl _
  | cons i l ih =>
    intro p
    unfold ringTail
    split_ifs
    · exact (ih p).cons i
    · exact (ih i).cons_cons i

theorem ringHead_sub (G : FaceGeom D) : ∀ l : List Nat, (ringHead G l).Sublist l := by
  intro l
  induction l with
  | nil => exact List.Sublist.refl _
  | cons i l ih =>
    unfold ringHead
    split_ifs
    · exact ih.cons i
    · exact (ringTail_sub G l i).cons_cons i

theorem ringTail_gap (G : FaceGeom D) : ∀ (l : List Nat) (p : Nat), (p :: l).Pairwise (fun a b => G.ang a ≤ G.ang b) → (p :: ringTail G p l).Pairwise fun a b => G.ang a + 1e-5 ≤ G.ang b := by
  intro l
  induction l with
  | nil => intro p _; simp [ringTail]
  | cons i l ih =>
    intro p hs
    have hp := List.pairwise_cons.1 hs
    unfold ringTail
    split_ifs with hc
    · exact ih p (List.pairwise_cons.2 ⟨fun x hx => hp.1 x (List.mem_cons_of_mem _ hx), (List.pairwise_cons.1 hp.2).2⟩)
    · have hi := ih i hp.2
      have hg := gap_of_not_same hc (hp.1 i (by simp))
      refine List.pairwise_cons.2 ⟨fun x hx => ?_, hi⟩
      rcases List.mem_cons.1 hx with rfl | hx
      · exact hg
      · have := (List.pairwise_cons.1 hi).1 x hx
        linarith [show (0:ℝ) < 1e-5 by norm_num]

theorem ringTail_nil (G : FaceGeom D) : ∀ (l : List Nat) (p : Nat), ringTail G p l = [] → ∀ x ∈ l, sameAngle (G.ang x) (G.ang p) := by
  intro l
  induction l with
  | nil => intro p _ x hx; simp at hx
  | cons i l ih =>
    intro p h x hx
    unfold ringTail at h
    split_ifs at h with hc
    rcases List.mem_cons.1 hx with rfl | hx
    · exact hc
    · exact ih p h x hx

/-- What is left by the filter: nothing, or at least two seeds whose angles are apart, also around the end. -/
theorem ringHead_spec (G : FaceGeom D) : ∀ l : List Nat, l.Pairwise (fun a b => G.ang a ≤ G.ang b) → (∀ k ∈ l, 0 ≤ G.ang k ∧ G.ang k < 2 * Real.pi) →
    (ringHead G l).Pairwise (fun a b => G.ang a + 1e-5 ≤ G.ang b ∧ G.ang b + 1e-5 ≤ G.ang a + 2 * Real.pi) ∧ (ringHead G l = [] ∨ 2 ≤ (ringHead G l).length) := by
  intro l
  induction l with
  | nil => intro _ _; simp [ringHead]
  | cons i l ih =>
    intro hs hr
    have hp := List.pairwise_cons.1 hs
    unfold ringHead
    split_ifs with hc
    · exact ih hp.2 fun k hk => hr k (List.mem_cons_of_mem _ hk)
    · have hg := ringTail_gap G l i hs
      have hl : ∀ x ∈ i :: l, G.ang x ≤ G.ang ((i :: l).getLast (by simp)) := by
        intro x hx
        obtain ⟨ys, hys⟩ : ∃ ys, i :: l = ys ++ [(i :: l).getLast (by simp)] := ⟨_, (List.dropLast_append_getLast (by simp)).symm⟩
        rw [hys] at hx hs
        rcases List.mem_append.1 hx with h | h
        · exact (List.pairwise_append.1 hs).2.2 x h _ (by simp)
        · rw [List.mem_singleton.1 h]
      have hlast := hr ((i :: l).getLast (by simp)) (List.getLast_mem _)
      have hi0 := hr i (by simp)
      have hfar : G.ang ((i :: l).getLast (by simp)) + 1e-5 ≤ G.ang i + 2 * Real.pi := by
        unfold sameAngle at hc
        push Not at hc
        have h2 := hc.2
        have hli := hl i (by simp)
        generalize G.ang ((i :: l).getLast (by simp)) = z at *
        rw [abs_of_nonpos (show G.ang i - z ≤ 0 by linarith), abs_of_nonpos (show -(G.ang i - z) - 2 * Real.pi ≤ 0 by linarith [hi0.1, hlast.2])] at h2
        linarith
      have hsub : (i :: ringTail G i l).Sublist (i :: l) := (ringTail_sub G l i).cons_cons i
      refine ⟨List.Pairwise.imp_of_mem (fun {a b} ha hb hab => ⟨hab, ?_⟩) hg, Or.inr ?_⟩
      · have h1 := hl b (hsub.subset hb)
        have h2 : G.ang i ≤ G.ang a := by
          rcases List.mem_cons.1 (hsub.subset ha) with h | h
          · rw [h]
          · exact hp.1 a h
        linarith
      · cases hq : ringTail G i l with
        | cons x y => simp
        | nil =>
          exfalso
          have hall := ringTail_nil G l i hq
          apply hc
          rcases List.mem_cons.1 (List.getLast_mem (show i :: l ≠ [] by simp)) with h | h
          · rw [h]; exact sameAngle_self _
          · exact sameAngle_comm (hall _ h)

/-! ## The corners -/

theorem cornerScan_fine (G : FaceGeom D) (ring : List Nat) : ∀ (l : List Nat) (last : Option Nat) (im : Nat), cornerScan G ring last im l = .fine →
    ∀ p ∈ (im :: l).zip l, ∀ k t, G.trim [p.1, p.2] (G.toCorner p.1 p.2) = some (k, t) → (∃ j ∈ ring, sameAngle (G.ang j) (G.ang k)) ∨ G.cornerDist p.1 p.2 - 1e-8 < t := by
  intro l
  induction l with
  | nil => intro last im _ p hp; simp at hp
  | cons i l ih =>
    intro last im h p hp k t hk
    rw [List.zip_cons_cons] at hp
    unfold cornerScan at h
    cases ht : G.trim [im, i] (G.toCorner im i) with
    | none =>
      simp only [ht] at h
      cases last with
      | none => simp at h
      | some q =>
        simp only [ite_self] at h
        rcases List.mem_cons.1 hp with rfl | hp
        · rw [ht] at hk; cases hk
        · exact ih _ _ h p hp k t hk
    | some r =>
      obtain ⟨q, len⟩ := r
      simp only [ht] at h
      split_ifs at h with h1 h2 h3
      · rcases List.mem_cons.1 hp with rfl | hp
        · rw [ht] at hk; cases hk; exact Or.inl h1
        · exact ih _ _ h p hp k t hk
      · rcases List.mem_cons.1 hp with rfl | hp
        · rw [ht] at hk; cases hk; exact Or.inr h2
        · exact ih _ _ h p hp k t hk

theorem cornerScan_add (G : FaceGeom D) (ring : List Nat) (k : Nat) : ∀ (l : List Nat) (last : Option Nat) (im : Nat), cornerScan G ring last im l = .add k →
    k ∉ ring ∧ ∃ a b t, G.trim [a, b] (G.toCorner a b) = some (k, t) := by
  intro l
  induction l with
  | nil => intro last im h; simp [cornerScan] at h
  | cons i l ih =>
    intro last im h
    unfold cornerScan at h
    cases ht : G.trim [im, i] (G.toCorner im i) with
    | none =>
      simp only [ht] at h
      cases last with
      | none => simp at h
      | some q => simp only [ite_self] at h; exact ih _ _ h
    | some r =>
      obtain ⟨q, len⟩ := r
      simp only [ht] at h
      split_ifs at h with h1 h2 h3
      · exact ih _ _ h
      · exact ih _ _ h
      · cases h; exact ⟨h3, _, _, _, ht⟩

theorem cornerScan_defined (G : FaceGeom D) (hstop : ∀ a b, G.trim [a, b] (G.toCorner a b) ≠ none) (ring : List Nat) : ∀ (l : List Nat) (last : Option Nat) (im : Nat), cornerScan G ring last im l ≠ .undefined := by
  intro l
  induction l with
  | nil => intro last im h; simp [cornerScan] at h
  | cons i l ih =>
    intro last im h
    unfold cornerScan at h
    cases ht : G.trim [im, i] (G.toCorner im i) with
    | none => exact hstop _ _ ht
    | some r =>
      obtain ⟨q, len⟩ := r
      simp only [ht] at h
      split_ifs at h with h1 h2 h3
      · exact ih _ _ h
      · exact ih _ _ h

theorem gapScan_add (G : FaceGeom D) (k : Nat) : ∀ (l : List Nat) (im : Nat), gapScan G im l = .add k → ∃ a b t, G.trim [a, b] (G.between a b) = some (k, t) := by
  intro l
  induction l with
  | nil => intro im h; simp [gapScan] at h
  | cons i l ih =>
    intro im h
    unfold gapScan at h
    split_ifs at h with h1
    · cases ht : G.trim [im, i] (G.between im i) with
      | none => simp [ht] at h
      | some r =>
        obtain ⟨q, len⟩ := r
        simp only [ht] at h
        split_ifs at h
        cases h
        exact ⟨_, _, _, ht⟩
    · exact ih _ h

theorem faceSpoke_mem (G : FaceGeom D) (Good : Nat → Prop) (hg : ∀ L d k t, G.trim L d = some (k, t) → Good k) (js : Nat) (dir : D) (nbrs l : List Nat) (h : faceSpoke G js dir nbrs = some l) (hn : ∀ k ∈ nbrs, Good k) :
    (∀ k ∈ l, Good k) ∧ l ≠ [] := by
  unfold faceSpoke at h
  cases ht : G.trim [] dir with
  | none => simp [ht] at h
  | some r =>
    obtain ⟨k, t⟩ := r
    have hk := hg _ _ _ _ ht
    simp only [ht] at h
    split_ifs at h with h1
    · cases h
      exact ⟨hn, fun q => by rw [q] at h1; simp at h1⟩
    · split at h
      · split_ifs at h
        · cases h; exact ⟨hn, by simp⟩
        · cases h
          refine ⟨fun x hx => ?_, by simp⟩
          simp only [List.mem_cons, List.not_mem_nil, or_false] at hx
          rcases hx with rfl | rfl
          · exact hn _ (by simp)
          · exact hk
      · cases h
        refine ⟨fun x hx => ?_, by simp⟩
        rcases List.mem_append.1 hx with h | h
        · exact hn x h
        · rw [List.mem_singleton.1 h]; exact hk

/-! ## The loop -/

/-- The last round of a loop that finds the face. -/
def LastRound (G : FaceGeom D) (Good : Nat → Prop) (r : List Nat) : Prop :=
  ∃ s e, s.Pairwise (fun a b => G.ang a ≤ G.ang b) ∧ (∀ k ∈ s, Good k) ∧ s.getLast? = some e ∧ r = ringHead G s ∧ (gapScan G e s = .fine ∨ ∃ k, gapScan G e s = .wrong k) ∧
    (r = [] ∨ ∃ e' last, r.getLast? = some e' ∧ cornerScan G r last e' r = .fine)

theorem faceLoop_done (G : FaceGeom D) (hsort : FaceSorts G) (Good : Nat → Prop) (hg : ∀ L d k t, G.trim L d = some (k, t) → Good k) : ∀ (fuel js : Nat) (dir : D) (nbrs : List Nat) (n : Nat) (r : List Nat),
    faceLoop G fuel js dir nbrs n = some (.done r) → (∀ k ∈ nbrs, Good k) → LastRound G Good r := by
  intro fuel
  induction fuel with
  | zero => intro js dir nbrs n r h; simp [faceLoop] at h
  | succ fuel ih =>
    intro js dir nbrs n r h hn
    unfold faceLoop at h
    by_cases hc : js < 5 ∨ nbrs.length = 1
    · rw [if_pos hc] at h
      simp only at h
      cases hs : faceSpoke G js (if js < 5 then G.dart js else G.flip dir) nbrs with
      | none => simp [hs] at h
      | some l =>
        simp only [hs] at h
        exact ih _ _ _ _ _ h (faceSpoke_mem G Good hg _ _ _ _ hs hn).1
    · rw [if_neg hc] at h
      simp only at h
      obtain ⟨hperm, hord⟩ := hsort nbrs
      have hns : ∀ k ∈ G.sort nbrs, Good k := fun k hk => hn k (hperm.mem_iff.1 hk)
      have hnr : ∀ k ∈ ringHead G (G.sort nbrs), Good k := fun k hk => hns k ((ringHead_sub G _).subset hk)
      cases he : (G.sort nbrs).getLast? with
      | none => simp [he] at h
      | some e =>
        simp only [he] at h
        have rest : ∀ last : Option Nat, (gapScan G e (G.sort nbrs) = .fine ∨ ∃ k, gapScan G e (G.sort nbrs) = .wrong k) →
            (match (ringHead G (G.sort nbrs)).getLast? with
              | none => some (FaceEnd.done [])
              | some e' =>
                match cornerScan G (ringHead G (G.sort nbrs)) last e' (ringHead G (G.sort nbrs)) with
                | .undefined => some .undefined
                | .failed => some .failed
                | .add k => faceLoop G fuel js (G.toCorner e' e') (ringHead G (G.sort nbrs) ++ [k]) (ringHead G (G.sort nbrs)).length
                | .fine => some (.done (ringHead G (G.sort nbrs)))) = some (.done r) → LastRound G Good r := by
          intro last hgap h
          cases hl : (ringHead G (G.sort nbrs)).getLast? with
          | none =>
            simp only [hl] at h
            cases h
            have : ringHead G (G.sort nbrs) = [] := List.getLast?_eq_none_iff.1 hl
            exact ⟨_, e, hord, hns, he, this.symm, hgap, Or.inl rfl⟩
          | some e' =>
            simp only [hl] at h
            cases hcs : cornerScan G (ringHead G (G.sort nbrs)) last e' (ringHead G (G.sort nbrs)) with
            | undefined => simp [hcs] at h
            | failed => simp [hcs] at h
            | add k =>
              simp only [hcs] at h
              obtain ⟨_, a, b, t, hk⟩ := cornerScan_add G _ k _ _ _ hcs
              refine ih _ _ _ _ _ h fun x hx => ?_
              rcases List.mem_append.1 hx with q | q
              · exact hnr x q
              · rw [List.mem_singleton.1 q]; exact hg _ _ _ _ hk
            | fine =>
              simp only [hcs] at h
              cases h
              exact ⟨_, e, hord, hns, he, rfl, hgap, Or.inr ⟨e', last, hl, hcs⟩⟩
        cases hgs : gapScan G e (G.sort nbrs) with
        | unbounded => simp [hgs] at h
        | add k =>
          simp only [hgs] at h
          obtain ⟨a, b, t, hk⟩ := gapScan_add G k _ _ hgs
          refine ih _ _ _ _ _ h fun x hx => ?_
          rcases List.mem_append.1 hx with q | q
          · exact hns x q
          · rw [List.mem_singleton.1 q]; exact hg _ _ _ _ hk
        | fine =>
          simp only [hgs] at h
          exact rest none (Or.inl hgs) h
        | wrong k =>
          simp only [hgs] at h
          exact rest (some k) (Or.inr ⟨k, hgs⟩) h

/-! ## C130 -/

/-- **C130 (a).** The seeds around a face that is found: each of them stopped a spoke, there are none or at least two, and they stand in the order of their angles, every two of them at least `1e-5` apart around the circle. -/
theorem C130_ring (G : FaceGeom D) (hsort : FaceSorts G) (Good : Nat → Prop) (hg : ∀ L d k t, G.trim L d = some (k, t) → Good k) (hang : ∀ k, Good k → 0 ≤ G.ang k ∧ G.ang k < 2 * Real.pi) (fuel : Nat) (r : List Nat)
    (h : treeFace G fuel = some (.done r)) :
    (∀ k ∈ r, Good k) ∧ (r = [] ∨ 2 ≤ r.length) ∧ r.Pairwise fun a b => G.ang a + 1e-5 ≤ G.ang b ∧ G.ang b + 1e-5 ≤ G.ang a + 2 * Real.pi := by
  obtain ⟨s, e, h1, h2, _, rfl, _⟩ := faceLoop_done G hsort Good hg _ _ _ _ _ _ h (by simp)
  obtain ⟨k1, k2⟩ := ringHead_spec G s h1 fun k hk => hang k (h2 k hk)
  exact ⟨fun k hk => h2 k ((ringHead_sub G s).subset hk), k2, k1⟩

/-- **C130 (b).** Every corner of a face that is found was tested: a seed that stops the spoke to the corner stops it at the corner, up to `1e-8`, or stands at the angle of one of the seeds around the face. -/
theorem C130_corners (G : FaceGeom D) (hsort : FaceSorts G) (fuel : Nat) (r : List Nat) (h : treeFace G fuel = some (.done r)) (i : Nat) (hi : i < r.length) (k : Nat) (t : ℝ)
    (hk : G.trim [r[(i + r.length - 1) % r.length]'(Nat.mod_lt _ (by omega)), r[i]] (G.toCorner (r[(i + r.length - 1) % r.length]'(Nat.mod_lt _ (by omega))) r[i]) = some (k, t)) :
    (∃ j ∈ r, sameAngle (G.ang j) (G.ang k)) ∨ G.cornerDist (r[(i + r.length - 1) % r.length]'(Nat.mod_lt _ (by omega))) r[i] - 1e-8 < t := by
  obtain ⟨s, e, _, _, _, _, _, hc⟩ := faceLoop_done G hsort (fun _ => True) (fun _ _ _ _ _ => trivial) _ _ _ _ _ _ h (by simp)
  rcases hc with rfl | ⟨e', last, he, hc⟩
  · simp at hi
  · have hp := cornerScan_fine G r r last e' hc
    have hprev : (e' :: r)[i]'(by simp; omega) = r[(i + r.length - 1) % r.length]'(Nat.mod_lt _ (by omega)) := by
      cases i with
      | zero =>
        have hl : r.getLast? = r[r.length - 1]? := List.getLast?_eq_getElem? 
        rw [hl, List.getElem?_eq_getElem (by omega)] at he
        have : (0 + r.length - 1) % r.length = r.length - 1 := by rw [Nat.mod_eq_of_lt (by omega)]; omega
        simp only [this, List.getElem_cons_zero]
        exact (Option.some.inj he).symm
      | succ i =>
        have : (i + 1 + r.length - 1) % r.length = i := by
          rw [show i + 1 + r.length - 1 = i + r.length by omega, Nat.add_mod_right, Nat.mod_eq_of_lt (by omega)]
        simp only [this, List.getElem_cons_succ]
    have hm : (r[(i + r.length - 1) % r.length]'(Nat.mod_lt _ (by omega)), r[i]) ∈ (e' :: r).zip r := by
      rw [← hprev]
      have hlen : i < ((e' :: r).zip r).length := by simp; omega
      have := List.getElem_mem hlen
      rwa [List.getElem_zip] at this
    exact hp _ hm k t hk

theorem faceLoop_defined (G : FaceGeom D) (hsort : FaceSorts G) (hstop : ∀ a b, G.trim [a, b] (G.toCorner a b) ≠ none) : ∀ (fuel js : Nat) (dir : D) (nbrs : List Nat) (n : Nat), (0 < js → nbrs ≠ []) →
    faceLoop G fuel js dir nbrs n ≠ some .undefined := by
  intro fuel
  induction fuel with
  | zero => intro js dir nbrs n _ h; simp [faceLoop] at h
  | succ fuel ih =>
    intro js dir nbrs n hn h
    unfold faceLoop at h
    by_cases hc : js < 5 ∨ nbrs.length = 1
    · rw [if_pos hc] at h
      simp only at h
      cases hs : faceSpoke G js (if js < 5 then G.dart js else G.flip dir) nbrs with
      | none => simp [hs] at h
      | some l =>
        simp only [hs] at h
        exact ih _ _ _ _ (fun _ => (faceSpoke_mem G (fun _ => True) (fun _ _ _ _ _ => trivial) _ _ _ _ hs (fun _ _ => trivial)).2) h
    · rw [if_neg hc] at h
      simp only at h
      cases he : (G.sort nbrs).getLast? with
      | none =>
        have : G.sort nbrs = [] := List.getLast?_eq_none_iff.1 he
        have hp := (hsort nbrs).1
        rw [this] at hp
        exact hn (by omega) hp.symm.eq_nil
      | some e =>
        simp only [he] at h
        have rest : ∀ last : Option Nat,
            (match (ringHead G (G.sort nbrs)).getLast? with
              | none => some (FaceEnd.done [])
              | some e' =>
                match cornerScan G (ringHead G (G.sort nbrs)) last e' (ringHead G (G.sort nbrs)) with
                | .undefined => some .undefined
                | .failed => some .failed
                | .add k => faceLoop G fuel js (G.toCorner e' e') (ringHead G (G.sort nbrs) ++ [k]) (ringHead G (G.sort nbrs)).length
                | .fine => some (.done (ringHead G (G.sort nbrs)))) ≠ some .undefined := by
          intro last h
          cases hl : (ringHead G (G.sort nbrs)).getLast? with
          | none => simp [hl] at h
          | some e' =>
            simp only [hl] at h
            cases hcs : cornerScan G (ringHead G (G.sort nbrs)) last e' (ringHead G (G.sort nbrs)) with
            | undefined => exact cornerScan_defined G hstop _ _ _ _ hcs
            | failed => simp [hcs] at h
            | add k => simp only [hcs] at h; exact ih _ _ _ _ (fun _ => by simp) h
            | fine => simp [hcs] at h
        cases hgs : gapScan G e (G.sort nbrs) with
        | unbounded => simp [hgs] at h
        | add k => simp only [hgs] at h; exact ih _ _ _ _ (fun _ => by simp) h
        | fine => simp only [hgs] at h; exact rest none h
        | wrong k => simp only [hgs] at h; exact rest (some k) h

/-- **C130 (c).** No index is read that was not set, where every spoke to a corner is stopped by a further seed. -/
theorem C130_defined_partial (G : FaceGeom D) (hsort : FaceSorts G) (hstop : ∀ a b, G.trim [a, b] (G.toCorner a b) ≠ none) (fuel : Nat) : treeFace G fuel ≠ some .undefined :=
  faceLoop_defined G hsort hstop fuel 0 _ [] 0 (by omega)

/-! ## The gaps -/

theorem gapScan_fine (G : FaceGeom D) : ∀ (l : List Nat) (im : Nat), gapScan G im l = .fine → (im :: l).IsChain fun a b => gapAngle (G.ang a) (G.ang b) ≤ Real.pi - 1e-5 := by
  intro l
  induction l with
  | nil => intro im _; simp
  | cons i l ih =>
    intro im h
    unfold gapScan at h
    split_ifs at h with h1
    · cases ht : G.trim [im, i] (G.between im i) with
      | none => simp [ht] at h
      | some r =>
        obtain ⟨q, len⟩ := r
        simp only [ht] at h
        split_ifs at h
    · exact List.isChain_cons_cons.2 ⟨not_lt.1 h1, ih i h⟩

theorem gapScan_wrong (G : FaceGeom D) (k : Nat) : ∀ (l : List Nat) (im : Nat), gapScan G im l = .wrong k → ∃ a b t, G.trim [a, b] (G.between a b) = some (k, t) ∧ Real.pi - 1e-5 < gapAngle (G.ang a) (G.ang b) ∧
    (gapAngle (G.ang a) (G.ang k) < 1e-10 ∨ gapAngle (G.ang a) (G.ang k) > gapAngle (G.ang a) (G.ang b) - 1e-10) := by
  intro l
  induction l with
  | nil => intro im h; simp [gapScan] at h
  | cons i l ih =>
    intro im h
    unfold gapScan at h
    split_ifs at h with h1
    · cases ht : G.trim [im, i] (G.between im i) with
      | none => simp [ht] at h
      | some r =>
        obtain ⟨q, len⟩ := r
        simp only [ht] at h
        split_ifs at h with h2
        cases h
        exact ⟨_, _, _, ht, h1, h2⟩
    · exact ih _ h

theorem gapAngle_of_le {a b : ℝ} (h : a ≤ b) : gapAngle a b = b - a := by
  unfold gapAngle
  rw [if_neg (by linarith)]

/-- The filter widens a gap by less than `1e-5`.  `q` is the last seed that was looked at. -/
theorem ringTail_chain (G : FaceGeom D) : ∀ (l : List Nat) (p q : Nat), (q :: l).Pairwise (fun a b => G.ang a ≤ G.ang b) → ((q :: l).IsChain fun a b => gapAngle (G.ang a) (G.ang b) ≤ Real.pi - 1e-5) →
    G.ang p ≤ G.ang q → G.ang q < G.ang p + 1e-5 → (∀ x ∈ l, G.ang x + 1e-5 ≤ G.ang p + 2 * Real.pi) →
    ((p :: ringTail G p l).IsChain fun a b => gapAngle (G.ang a) (G.ang b) ≤ Real.pi) ∧ G.ang ((q :: l).getLast (by simp)) < G.ang ((p :: ringTail G p l).getLast (by simp)) + 1e-5 := by
  intro l
  induction l with
  | nil => intro p q _ _ hpq hq _; simpa [ringTail] using hq
  | cons i l ih =>
    intro p q hs hc hpq hq hfar
    have hp := List.pairwise_cons.1 hs
    obtain ⟨c1, c2⟩ := List.isChain_cons_cons.1 hc
    have hqi := hp.1 i (by simp)
    rw [gapAngle_of_le hqi] at c1
    unfold ringTail
    split_ifs with hsame
    · have hi : G.ang i < G.ang p + 1e-5 := by
        rcases hsame with h | h
        · rw [abs_of_nonneg (by linarith)] at h; linarith
        · exfalso
          have := hfar i (by simp)
          rw [abs_of_nonneg (show 0 ≤ G.ang i - G.ang p by linarith), abs_of_nonpos (by linarith [show (0:ℝ) < 1e-5 by norm_num])] at h
          linarith
      obtain ⟨k1, k2⟩ := ih p i hp.2 c2 (by linarith) hi fun x hx => hfar x (List.mem_cons_of_mem _ hx)
      refine ⟨k1, ?_⟩
      rw [List.getLast_cons (by simp)]
      exact k2
    · obtain ⟨k1, k2⟩ := ih i i hp.2 c2 le_rfl (by linarith [show (0:ℝ) < 1e-5 by norm_num]) fun x hx => by
        have := hfar x (List.mem_cons_of_mem _ hx)
        linarith
      refine ⟨List.isChain_cons_cons.2 ⟨?_, k1⟩, ?_⟩
      · rw [gapAngle_of_le (by linarith)]
        linarith
      · rw [List.getLast_cons (show i :: l ≠ [] by simp)]
        simpa only [List.getLast_cons_cons] using k2

theorem ringHead_chain (G : FaceGeom D) (z : Nat) : ∀ (l : List Nat) (im : Nat), l.Pairwise (fun a b => G.ang a ≤ G.ang b) → (∀ k ∈ l, 0 ≤ G.ang k ∧ G.ang k < 2 * Real.pi) →
    ((im :: l).IsChain fun a b => gapAngle (G.ang a) (G.ang b) ≤ Real.pi - 1e-5) → l.getLast? = some z → (im = z ∨ ((∀ x ∈ l, G.ang im ≤ G.ang x) ∧ sameAngle (G.ang im) (G.ang z) ∧ 0 ≤ G.ang im)) →
    ringHead G l = [] ∨ ∃ f e, (ringHead G l).head? = some f ∧ (ringHead G l).getLast? = some e ∧ ((ringHead G l).IsChain fun a b => gapAngle (G.ang a) (G.ang b) ≤ Real.pi) ∧ G.ang f + 2 * Real.pi ≤ G.ang e + Real.pi + 1e-5 := by
  intro l
  induction l with
  | nil => intro im _ _ _ h; simp at h
  | cons i l ih =>
    intro im hs hr hc hz him
    obtain ⟨c1, c2⟩ := List.isChain_cons_cons.1 hc
    have hp := List.pairwise_cons.1 hs
    have hz' : (i :: l).getLast (by simp) = z := by
      rw [List.getLast?_eq_some_getLast (by simp)] at hz
      exact Option.some.inj hz
    have hzr := hr z (hz' ▸ List.getLast_mem _)
    have hi0 := hr i (by simp)
    have hlz : ∀ x ∈ i :: l, G.ang x ≤ G.ang z := by
      intro x hx
      obtain ⟨ys, hys⟩ : ∃ ys, i :: l = ys ++ [(i :: l).getLast (by simp)] := ⟨_, (List.dropLast_append_getLast (by simp)).symm⟩
      rw [hz'] at hys
      rw [hys] at hx hs
      rcases List.mem_append.1 hx with h | h
      · exact (List.pairwise_append.1 hs).2.2 x h _ (by simp)
      · rw [List.mem_singleton.1 h]
    have hiz := hlz i (by simp)
    unfold ringHead
    rw [hz']
    split_ifs with hsame
    · cases l with
      | nil => left; simp [ringHead]
      | cons j l =>
        have hz2 : (j :: l).getLast? = some z := by rw [← hz, List.getLast?_cons_cons]
        exact ih i hp.2 (fun k hk => hr k (List.mem_cons_of_mem _ hk)) c2 hz2 (Or.inr ⟨hp.1, hsame, hi0.1⟩)
    · right
      have hns := hsame
      unfold sameAngle at hns
      push Not at hns
      obtain ⟨n1, n2⟩ := hns
      rw [abs_of_nonpos (show G.ang i - G.ang z ≤ 0 by linarith)] at n1 n2
      rw [abs_of_nonpos (show -(G.ang i - G.ang z) - 2 * Real.pi ≤ 0 by linarith [hi0.1, hzr.2])] at n2
      obtain ⟨k1, k2⟩ := ringTail_chain G l i i hs c2 le_rfl (by linarith [show (0:ℝ) < 1e-5 by norm_num]) fun x hx => by
        have := hlz x (List.mem_cons_of_mem _ hx)
        linarith
      rw [hz'] at k2
      refine ⟨i, _, rfl, List.getLast?_eq_some_getLast (by simp), k1, ?_⟩
      have hb : G.ang i + 2 * Real.pi ≤ G.ang z + Real.pi := by
        rcases him with rfl | ⟨h1, h2, h3⟩
        · unfold gapAngle at c1
          rw [if_pos (by linarith [show (0:ℝ) < 1e-5 by norm_num])] at c1
          linarith [show (0:ℝ) < 1e-5 by norm_num]
        · have hii := h1 i (by simp)
          rw [gapAngle_of_le hii] at c1
          rcases h2 with h | h
          · rw [abs_of_nonpos (by linarith)] at h
            linarith
          · rw [abs_of_nonpos (show G.ang im - G.ang z ≤ 0 by linarith), abs_of_nonpos (by linarith [hzr.2])] at h
            linarith
      linarith

/-- **C130 (d).** Where a spoke in the middle of a gap that is too wide is stopped by a seed in the gap, the face that is found is closed: from each of its seeds to the next is at most half a turn, up to `1e-5`. -/
theorem C130_closed (G : FaceGeom D) (hsort : FaceSorts G) (Good : Nat → Prop) (hg : ∀ L d k t, G.trim L d = some (k, t) → Good k) (hang : ∀ k, Good k → 0 ≤ G.ang k ∧ G.ang k < 2 * Real.pi)
    (hin : ∀ a b k t, G.trim [a, b] (G.between a b) = some (k, t) → Real.pi - 1e-5 < gapAngle (G.ang a) (G.ang b) → 1e-10 ≤ gapAngle (G.ang a) (G.ang k) ∧ gapAngle (G.ang a) (G.ang k) ≤ gapAngle (G.ang a) (G.ang b) - 1e-10)
    (fuel : Nat) (r : List Nat) (h : treeFace G fuel = some (.done r)) (i : Nat) (hi : i < r.length) :
    gapAngle (G.ang (r[(i + r.length - 1) % r.length]'(Nat.mod_lt _ (by omega)))) (G.ang r[i]) ≤ Real.pi + 1e-5 := by
  obtain ⟨s, e, h1, h2, h3, hr, h4, _⟩ := faceLoop_done G hsort Good hg _ _ _ _ _ _ h (by simp)
  have hfine : gapScan G e s = .fine := by
    rcases h4 with h | ⟨k, hk⟩
    · exact h
    · exfalso
      obtain ⟨a, b, t, w1, w2, w3⟩ := gapScan_wrong G k _ _ hk
      have := hin a b k t w1 w2
      rcases w3 with w | w <;> linarith [this.1, this.2]
  have hspec := ringHead_spec G s h1 fun k hk => hang k (h2 k hk)
  rcases ringHead_chain G e s e h1 (fun k hk => hang k (h2 k hk)) (gapScan_fine G s e hfine) h3 (Or.inl rfl) with q | ⟨f, e', q1, q2, q3, q4⟩
  · rw [hr, q] at hi; simp at hi
  · rw [← hr] at q1 q2 q3 hspec
    cases i with
    | zero =>
      have hl : r.getLast? = r[r.length - 1]? := List.getLast?_eq_getElem?
      rw [hl, List.getElem?_eq_getElem (by omega)] at q2
      have hq2 := Option.some.inj q2
      have hq1 : r[0] = f := by
        rw [List.head?_eq_getElem?, List.getElem?_eq_getElem hi] at q1
        exact Option.some.inj q1
      have hmod : (0 + r.length - 1) % r.length = r.length - 1 := by rw [Nat.mod_eq_of_lt (by omega)]; omega
      simp only [hmod]
      have hlen : 2 ≤ r.length := by
        rcases hspec.2 with q | q
        · rw [q] at hi; simp at hi
        · exact q
      have hpw := List.pairwise_iff_getElem.1 hspec.1 0 (r.length - 1) hi (by omega) (by omega)
      rw [hq1, hq2] at hpw ⊢
      unfold gapAngle
      rw [if_pos (by linarith [hpw.1, show (0:ℝ) < 1e-5 by norm_num])]
      linarith
    | succ i =>
      have hmod : (i + 1 + r.length - 1) % r.length = i := by
        rw [show i + 1 + r.length - 1 = i + r.length by omega, Nat.add_mod_right, Nat.mod_eq_of_lt (by omega)]
      simp only [hmod]
      have := List.isChain_iff_getElem.1 q3 i hi
      linarith [show (0:ℝ) < 1e-5 by norm_num]

/-! ## The index that is not set -/

/-- **C130 (e).** Where a round finds no gap that is too wide and the spoke to the first corner is not stopped by a further seed, the code reads the point of an index that has no value. -/
theorem C130_unset_undefined (G : FaceGeom D) (fuel js : Nat) (dir : D) (nbrs : List Nat) (n e f e' : Nat) (l : List Nat) (hjs : 5 ≤ js) (hlen : nbrs.length ≠ 1) (he : (G.sort nbrs).getLast? = some e) (hgap : gapScan G e (G.sort nbrs) = .fine)
    (hr : ringHead G (G.sort nbrs) = f :: l) (he' : (f :: l).getLast? = some e') (ht : G.trim [e', f] (G.toCorner e' f) = none) : faceLoop G (fuel + 1) js dir nbrs n = some .undefined := by
  unfold faceLoop
  rw [if_neg (by omega)]
  simp only [he, hgap, hr, he']
  unfold cornerScan
  simp only [ht]

/-! ## Examples -/

/-- A triangle: three seeds at the angles 0, 2 and 4.  `b` tells whether there is a seed behind each corner. -/
noncomputable def triFace (b : Bool) : FaceGeom Nat where
  dart j := j % 3
  flip d := d
  between _ _ := 10
  toCorner _ _ := 20
  cornerDist _ _ := 1
  trim _ d := if d < 3 then some (d, 1) else if d = 20 ∧ b then some (0, 5) else none
  ang k := 2 * k
  sort l := l.insertionSort (· ≤ ·)

theorem triFace_sorts (b : Bool) : FaceSorts (triFace b) := by
  intro l
  refine ⟨List.perm_insertionSort _ l, ?_⟩
  exact (List.pairwise_insertionSort (· ≤ ·) l).imp fun {x y} h => by
    have : (x : ℝ) ≤ y := by exact_mod_cast h
    show (2 : ℝ) * x ≤ 2 * y
    linarith

theorem triFace_spokes (b : Bool) (fuel : Nat) : treeFace (triFace b) (fuel + 5) = faceLoop (triFace b) fuel 5 1 [0, 1, 2] 0 := by
  have h0 : faceSpoke (triFace b) 0 0 [] = some [0] := by simp [faceSpoke, triFace]
  have h1 : faceSpoke (triFace b) 1 1 [0] = some [0, 1] := by
    have q : ¬ (|(2 : ℝ)| < 1e-8 ∨ |(2 : ℝ) - 2 * Real.pi| < 1e-8) := by
      push Not
      have := Real.pi_gt_three
      refine ⟨by norm_num, ?_⟩
      rw [abs_of_nonpos (by linarith)]
      norm_num
      linarith
    push Not at q
    simp [faceSpoke, triFace]
    exact ⟨by norm_num, q.2⟩
  have h2 : faceSpoke (triFace b) 2 2 [0, 1] = some [0, 1, 2] := by simp [faceSpoke, triFace]
  have h3 : faceSpoke (triFace b) 3 0 [0, 1, 2] = some [0, 1, 2] := by simp [faceSpoke, triFace]
  have h4 : faceSpoke (triFace b) 4 1 [0, 1, 2] = some [0, 1, 2] := by simp [faceSpoke, triFace]
  unfold treeFace
  rw [faceLoop, if_pos (Or.inl (by norm_num))]
  simp only [show (0 < 5) = True by simp, if_true, show (triFace b).dart 0 = 0 from rfl, h0]
  rw [faceLoop, if_pos (Or.inl (by norm_num))]
  simp only [show (0 + 1 < 5) = True by simp, if_true, show (triFace b).dart (0 + 1) = 1 from rfl, h1]
  rw [faceLoop, if_pos (Or.inl (by norm_num))]
  simp only [show (0 + 1 + 1 < 5) = True by simp, if_true, show (triFace b).dart (0 + 1 + 1) = 2 from rfl, h2]
  rw [faceLoop, if_pos (Or.inl (by norm_num))]
  simp only [show (0 + 1 + 1 + 1 < 5) = True by simp, if_true, show (triFace b).dart (0 + 1 + 1 + 1) = 0 from rfl, h3]
  rw [faceLoop, if_pos (Or.inl (by norm_num))]
  simp only [show (0 + 1 + 1 + 1 + 1 < 5) = True by simp, if_true, show (triFace b).dart (0 + 1 + 1 + 1 + 1) = 1 from rfl, h4]

theorem triFace_sort (b : Bool) : (triFace b).sort [0, 1, 2] = [0, 1, 2] := by
  show List.insertionSort (· ≤ ·) [0, 1, 2] = [0, 1, 2]
  decide

theorem triFace_gaps (b : Bool) : gapScan (triFace b) 2 [0, 1, 2] = .fine := by
  have h1 := Real.pi_gt_d2
  have h2 := Real.pi_lt_d2
  norm_num at h1 h2
  have g1 : gapAngle ((triFace b).ang 2) ((triFace b).ang 0) = 2 * Real.pi - 4 := by
    simp only [gapAngle, triFace]
    norm_num
    ring
  have g2 : gapAngle ((triFace b).ang 0) ((triFace b).ang 1) = 2 := by
    simp only [gapAngle, triFace]
    norm_num
  have g3 : gapAngle ((triFace b).ang 1) ((triFace b).ang 2) = 2 := by
    simp only [gapAngle, triFace]
    norm_num
  unfold gapScan
  rw [if_neg (by rw [g1]; norm_num; linarith)]
  unfold gapScan
  rw [if_neg (by rw [g2]; norm_num; linarith)]
  unfold gapScan
  rw [if_neg (by rw [g3]; norm_num; linarith)]
  rfl

theorem triFace_apart (b : Bool) (i j : Nat) (hi : i < 3) (hj : j < 3) (hij : i ≠ j) : ¬ sameAngle ((triFace b).ang i) ((triFace b).ang j) := by
  have h1 := Real.pi_gt_d2
  have h2 := Real.pi_lt_d2
  norm_num at h1 h2
  have key : ∀ x : ℝ, |x| = 2 ∨ |x| = 4 → ¬ (|x| < 1e-5 ∨ |(|x|) - 2 * Real.pi| < 1e-5) := by
    intro x hx
    push Not
    rcases hx with h | h
    · rw [h, abs_of_nonpos (by linarith)]
      constructor <;> norm_num
      linarith
    · rw [h, abs_of_nonpos (by linarith)]
      constructor <;> norm_num
      linarith
  apply key
  have : (i = 0 ∧ j = 1) ∨ (i = 0 ∧ j = 2) ∨ (i = 1 ∧ j = 0) ∨ (i = 1 ∧ j = 2) ∨ (i = 2 ∧ j = 0) ∨ (i = 2 ∧ j = 1) := by omega
  rcases this with ⟨rfl, rfl⟩ | ⟨rfl, rfl⟩ | ⟨rfl, rfl⟩ | ⟨rfl, rfl⟩ | ⟨rfl, rfl⟩ | ⟨rfl, rfl⟩ <;> simp only [triFace] <;> norm_num

theorem triFace_ring (b : Bool) : ringHead (triFace b) [0, 1, 2] = [0, 1, 2] := by
  unfold ringHead
  rw [if_neg (show ¬ sameAngle ((triFace b).ang 0) ((triFace b).ang ([0, 1, 2].getLast (by simp))) from triFace_apart b 0 2 (by norm_num) (by norm_num) (by norm_num))]
  unfold ringTail
  rw [if_neg (triFace_apart b 1 0 (by norm_num) (by norm_num) (by norm_num))]
  unfold ringTail
  rw [if_neg (triFace_apart b 2 1 (by norm_num) (by norm_num) (by norm_num))]
  unfold ringTail
  rfl

/-- With a seed behind each corner the triangle is found. -/
theorem triFace_found : treeFace (triFace true) 6 = some (.done [0, 1, 2]) := by
  rw [triFace_spokes true 1]
  unfold faceLoop
  rw [if_neg (by simp)]
  have hc : ∀ last im l, cornerScan (triFace true) [0, 1, 2] last im l = .fine := by
    intro last im l
    induction l generalizing last im with
    | nil => rfl
    | cons i l ih =>
      unfold cornerScan
      have ht : (triFace true).trim [im, i] ((triFace true).toCorner im i) = some (0, 5) := by simp [triFace]
      simp only [ht]
      rw [if_pos ⟨0, by simp, sameAngle_self _⟩]
      exact ih _ _
  simp only [triFace_sort, List.getLast?_cons_cons, List.getLast?_singleton, triFace_gaps, triFace_ring, hc]

/-- `C130_ring`, `C130_corners` and `C130_closed` speak about it. -/
example : gapAngle ((triFace true).ang 2) ((triFace true).ang 0) ≤ Real.pi + 1e-5 := by
  refine C130_closed (triFace true) (triFace_sorts true) (fun k => k < 3) ?_ ?_ ?_ 6 [0, 1, 2] triFace_found 0 (by simp)
  · intro L d k t h
    simp only [triFace] at h
    split_ifs at h with h1 h2 <;> cases h
    · exact h1
    · norm_num
  · intro k hk
    have : (k : ℝ) ≤ 2 := by exact_mod_cast (show k ≤ 2 by omega)
    have := Real.pi_gt_three
    show 0 ≤ (2 : ℝ) * k ∧ (2 : ℝ) * k < 2 * Real.pi
    exact ⟨by positivity, by linarith⟩
  · intro a b k t h
    simp [triFace] at h

/-- **C130 (f).** Without a seed behind the first corner the same triangle makes the code read an index that has no value: a face with three corners suffices. -/
theorem C130_triangle_undefined : treeFace (triFace false) 6 = some .undefined := by
  rw [triFace_spokes false 1]
  exact C130_unset_undefined (triFace false) 0 5 1 [0, 1, 2] 0 2 0 2 [1, 2] (le_refl 5) (by simp) (by rw [triFace_sort]; rfl) (by rw [triFace_sort]; exact triFace_gaps false) (by rw [triFace_sort]; exact triFace_ring false) rfl (by simp [triFace])

end VoroCrust
