import Verif.Props.Mesh
import Verif.Model.Orient
import Mathlib.Data.List.Rotate

/-! # Property C23: consistent orientation -/

set_option linter.unusedSimpArgs false

namespace VoroCrust

open List (IsRotated)

/-- Faces `i` and `j` share an edge that belongs to exactly two faces, and traverse it in opposite directions. -/
def OppositeOn (F : List (List Nat)) (i j : Nat) : Prop :=
  i ≠ j ∧ ∃ a b, (a, b) ∈ faceEdges (F.getD i []) ∧ (b, a) ∈ faceEdges (F.getD j []) ∧ sharedBy F a b = 2

/-- Faces `i` and `j` share an edge that belongs to exactly two faces. -/
def ManifoldNbr (F : List (List Nat)) (i j : Nat) : Prop :=
  i ≠ j ∧ i < F.length ∧ j < F.length ∧ ∃ a b, a ≠ b ∧ a ∈ F.getD i [] ∧ b ∈ F.getD i [] ∧ a ∈ F.getD j [] ∧ b ∈ F.getD j [] ∧ sharedBy F a b = 2

/-- Face `m` has been fixed: it occurs in the log, or it is face 0 and its uninitialised flag was set. -/
def FixedIn (g : Bool) (F0 : List (List Nat)) (L : List (Nat × Option Nat)) (m : Nat) : Prop :=
  (∃ p, (m, p) ∈ L) ∨ (m = 0 ∧ g = true ∧ F0 ≠ [])

/-- A propagation history, newest entry first.  A seed is the first face not yet fixed and keeps its input
orientation; every other face is entered from a face fixed before it, and traverses a shared manifold edge
opposite to it. -/
inductive OrientLog (g : Bool) (F0 F : List (List Nat)) : List (Nat × Option Nat) → Prop
  | nil : OrientLog g F0 F []
  | seed {L k} : OrientLog g F0 F L → ¬ FixedIn g F0 L k → (∀ m, m < k → FixedIn g F0 L m) → k < F0.length →
      F.getD k [] = F0.getD k [] → OrientLog g F0 F ((k, none) :: L)
  | prop {L i j} : OrientLog g F0 F L → ¬ FixedIn g F0 L j → FixedIn g F0 L i → j < F0.length →
      OppositeOn F i j → OrientLog g F0 F ((j, some i) :: L)

/-- Number of faces that differ from the input. -/
def numChanged (F0 F : List (List Nat)) : Nat := (List.range F0.length).countP (fun k => decide (F.getD k [] ≠ F0.getD k []))

/-- Number of seeds in a history. -/
def numSeeds (L : List (Nat × Option Nat)) : Nat := L.countP (fun x => decide (x.2 = none))

/-! ### Flipping one face -/

theorem faceEdges_tri (a b c : Nat) : faceEdges [a, b, c] = [(a, b), (b, c), (c, a)] := rfl

theorem flipEdge_some {f f' : List Nat} (h3 : f.length = 3) (hn : f.Nodup) {p q : Nat} (e : flipEdge p q f = some f') :
    f' ~r f.reverse ∧ f' ≠ f ∧ (p, q) ∈ faceEdges f ∧ (q, p) ∈ faceEdges f' := by
  obtain ⟨a, b, c, rfl⟩ := tri_eq h3
  simp only [List.nodup_cons, List.mem_cons, List.not_mem_nil, or_false, not_or] at hn
  obtain ⟨⟨q1, q2⟩, q3, _⟩ := hn
  simp only [flipEdge] at e
  split_ifs at e with h1 h2 h3
  · obtain ⟨rfl, rfl⟩ := h1
    cases e
    exact ⟨⟨2, rfl⟩, by simp [Ne.symm q1], by simp [faceEdges_tri], by simp [faceEdges_tri]⟩
  · obtain ⟨rfl, rfl⟩ := h2
    cases e
    exact ⟨⟨1, rfl⟩, by simp [Ne.symm q3], by simp [faceEdges_tri], by simp [faceEdges_tri]⟩
  · obtain ⟨rfl, rfl⟩ := h3
    cases e
    exact ⟨⟨0, rfl⟩, by simp [Ne.symm q2], by simp [faceEdges_tri], by simp [faceEdges_tri]⟩

theorem flipEdge_none {f : List Nat} (h3 : f.length = 3) {p q : Nat} (e : flipEdge p q f = none) : (p, q) ∉ faceEdges f := by
  obtain ⟨a, b, c, rfl⟩ := tri_eq h3
  simp only [flipEdge] at e
  split_ifs at e with h1 h2 h3
  simp only [faceEdges_tri, List.mem_cons, List.not_mem_nil, or_false, Prod.mk.injEq, not_or]
  exact ⟨fun h => h1 ⟨h.1.symm, h.2.symm⟩, fun h => h2 ⟨h.1.symm, h.2.symm⟩, fun h => h3 ⟨h.1.symm, h.2.symm⟩⟩

/-! ### Incidence does not depend on the orientation -/

theorem flatten_count_perm {F G : List (List Nat)} (h : List.Forall₂ List.Perm F G) (p : Nat) : F.flatten.count p = G.flatten.count p := by
  induction h with
  | nil => rfl
  | cons hab _ ih => simp only [List.flatten_cons, List.count_append, ih, hab.count_eq p]

theorem inc_perm {F G : List (List Nat)} (h : List.Forall₂ List.Perm F G) (k p : Nat) : inc k F p = inc k G p := by
  induction h generalizing k with
  | nil => rfl
  | cons hab _ ih => simp only [inc, ih, hab.count_eq p]

theorem sharedBy_perm {F G : List (List Nat)} (h : List.Forall₂ List.Perm F G) (a b : Nat) : sharedBy F a b = sharedBy G a b := by
  unfold sharedBy
  induction h with
  | nil => rfl
  | cons hab _ ih => simp only [List.countP_cons, ih, hab.mem_iff]

theorem triMesh_perm {n : Nat} {F G : List (List Nat)} (h : List.Forall₂ List.Perm F G) (ht : TriMesh n F) : TriMesh n G := by
  induction h with
  | nil => exact ht
  | cons hab _ ih =>
    obtain ⟨⟨h1, h2⟩, h3⟩ := ht.cons
    intro g hg
    rcases List.mem_cons.1 hg with rfl | hg
    · exact ⟨by rw [← hab.length_eq]; exact h1, fun c hc => h2 c (hab.mem_iff.2 hc)⟩
    · exact ih h3 g hg

theorem simple_perm {F G : List (List Nat)} (h : List.Forall₂ List.Perm F G) (hs : SimpleFaces F) : SimpleFaces G := by
  induction h with
  | nil => exact hs
  | cons hab _ ih =>
    intro g hg
    rcases List.mem_cons.1 hg with rfl | hg
    · exact (hab.nodup_iff).1 (hs _ (by simp))
    · exact ih (fun f hf => hs f (by simp [hf])) g hg

theorem buildPointFaces_perm {n : Nat} {F G : List (List Nat)} (h : List.Forall₂ List.Perm F G) (ht : TriMesh n F) :
    buildPointFaces n G = buildPointFaces n F := by
  rw [buildPointFaces_eq n F ht, buildPointFaces_eq n G (triMesh_perm h ht)]
  congr 1; funext p
  rw [flatten_count_perm h, inc_perm h]

theorem getD_of_lt {F : List (List Nat)} {k : Nat} (h : k < F.length) : F[k]? = some (F.getD k []) := by
  simp [List.getD, List.getElem?_eq_getElem h]

theorem forall₂_of_getD {R : List Nat → List Nat → Prop} {F G : List (List Nat)} (hl : G.length = F.length)
    (h : ∀ k, k < F.length → R (F.getD k []) (G.getD k [])) : List.Forall₂ R F G := by
  refine List.forall₂_iff_get.2 ⟨hl.symm, fun k h1 h2 => ?_⟩
  have := h k h1
  simpa [List.getD, List.getElem?_eq_getElem h1, List.getElem?_eq_getElem h2] using this

/-! ### The invariant -/

/-- Invariant of the propagation with history `L`. -/
structure OrInv (g : Bool) (F0 : List (List Nat)) (s : OrState) (L : List (Nat × Option Nat)) : Prop where
  lenF : s.faces.length = F0.length
  lenX : s.fixed.length = F0.length
  cur : ∀ k, k < F0.length → s.faces.getD k [] = F0.getD k [] ∨ ((∃ i, (k, some i) ∈ L) ∧ s.faces.getD k [] ~r (F0.getD k []).reverse)
  fixed : ∀ k, k < F0.length → (s.fixed[k]? = some true ↔ FixedIn g F0 L k)
  log : OrientLog g F0 s.faces L

theorem OrInv.perm {g : Bool} {F0 : List (List Nat)} {s : OrState} {L : List (Nat × Option Nat)} (h : OrInv g F0 s L) :
    List.Forall₂ List.Perm F0 s.faces := by
  refine forall₂_of_getD h.lenF (fun k hk => ?_)
  rcases h.cur k hk with e | ⟨_, e⟩
  · rw [e]
  · exact (e.perm.trans (List.reverse_perm _)).symm

theorem OrientLog.lt {g : Bool} {F0 F : List (List Nat)} {L : List (Nat × Option Nat)} (h : OrientLog g F0 F L) :
    ∀ m, FixedIn g F0 L m → m < F0.length := by
  induction h with
  | nil =>
    rintro m (⟨p, hp⟩ | ⟨rfl, _, hne⟩)
    · simp at hp
    · exact List.length_pos_of_ne_nil hne
  | seed _ _ _ hk _ ih =>
    rintro m (⟨p, hp⟩ | hm)
    · rcases List.mem_cons.1 hp with e | hp
      · cases e; exact hk
      · exact ih m (Or.inl ⟨p, hp⟩)
    · exact ih m (Or.inr hm)
  | prop _ _ _ hk _ ih =>
    rintro m (⟨p, hp⟩ | hm)
    · rcases List.mem_cons.1 hp with e | hp
      · cases e; exact hk
      · exact ih m (Or.inl ⟨p, hp⟩)
    · exact ih m (Or.inr hm)

theorem FixedIn.cons {g : Bool} {F0 : List (List Nat)} {L : List (Nat × Option Nat)} {m : Nat} (h : FixedIn g F0 L m) (x : Nat × Option Nat) :
    FixedIn g F0 (x :: L) m := by
  rcases h with ⟨p, hp⟩ | h
  · exact Or.inl ⟨p, by simp [hp]⟩
  · exact Or.inr h

theorem fixedIn_cons_iff {g : Bool} {F0 : List (List Nat)} {L : List (Nat × Option Nat)} {m j : Nat} {p : Option Nat} :
    FixedIn g F0 ((j, p) :: L) m ↔ m = j ∨ FixedIn g F0 L m := by
  constructor
  · rintro (⟨q, hq⟩ | h)
    · rcases List.mem_cons.1 hq with e | hq
      · cases e; exact Or.inl rfl
      · exact Or.inr (Or.inl ⟨q, hq⟩)
    · exact Or.inr (Or.inr h)
  · rintro (rfl | h)
    · exact Or.inl ⟨p, by simp⟩
    · exact h.cons _

/-- The history stays valid when only faces not in it change and edge incidence is kept. -/
theorem OrientLog.congr {g : Bool} {F0 F G : List (List Nat)} {L : List (Nat × Option Nat)} (h : OrientLog g F0 F L)
    (hsame : ∀ m, FixedIn g F0 L m → G.getD m [] = F.getD m []) (hsh : ∀ a b, sharedBy G a b = sharedBy F a b) : OrientLog g F0 G L := by
  induction h with
  | nil => exact OrientLog.nil
  | seed _ h1 h2 h3 h4 ih =>
    refine OrientLog.seed (ih (fun m hm => hsame m (hm.cons _))) h1 h2 h3 ?_
    rw [hsame _ (fixedIn_cons_iff.2 (Or.inl rfl))]; exact h4
  | prop _ h1 h2 h3 h4 ih =>
    refine OrientLog.prop (ih (fun m hm => hsame m (hm.cons _))) h1 h2 h3 ?_
    obtain ⟨hne, a, b, e1, e2, e3⟩ := h4
    refine ⟨hne, a, b, ?_, ?_, by rw [hsh]; exact e3⟩
    · rw [hsame _ (h2.cons _)]; exact e1
    · rw [hsame _ (fixedIn_cons_iff.2 (Or.inl rfl))]; exact e2

/-- What a part of a sweep does: the history grows by propagated entries only; flips are counted. -/
def SweepStep (g : Bool) (F0 : List (List Nat)) (s : OrState) (L : List (Nat × Option Nat)) (s' : OrState) (L' : List (Nat × Option Nat)) : Prop :=
  OrInv g F0 s' L' ∧ (∀ m, FixedIn g F0 L m → FixedIn g F0 L' m) ∧ numSeeds L' = numSeeds L ∧ (∀ k, (k, none) ∈ L' ↔ (k, none) ∈ L) ∧
    numChanged F0 s.faces ≤ numChanged F0 s'.faces ∧
    (s'.flipped = true → s.flipped = true ∨ numChanged F0 s.faces < numChanged F0 s'.faces)

theorem SweepStep.refl {g : Bool} {F0 : List (List Nat)} {s : OrState} {L : List (Nat × Option Nat)} (h : OrInv g F0 s L) : SweepStep g F0 s L s L :=
  ⟨h, fun _ hm => hm, rfl, fun _ => Iff.rfl, le_refl _, fun h => Or.inl h⟩

theorem SweepStep.trans {g : Bool} {F0 : List (List Nat)} {s s' s'' : OrState} {L L' L'' : List (Nat × Option Nat)}
    (h : SweepStep g F0 s L s' L') (h' : SweepStep g F0 s' L' s'' L'') : SweepStep g F0 s L s'' L'' := by
  obtain ⟨_, a2, a3, a4, a5, a6⟩ := h
  obtain ⟨b1, b2, b3, b4, b5, b6⟩ := h'
  refine ⟨b1, fun m hm => b2 m (a2 m hm), b3.trans a3, fun k => (b4 k).trans (a4 k), le_trans a5 b5, fun hf => ?_⟩
  rcases b6 hf with h1 | h1
  · rcases a6 h1 with h2 | h2
    · exact Or.inl h2
    · exact Or.inr (lt_of_lt_of_le h2 b5)
  · exact Or.inr (lt_of_le_of_lt a5 h1)

theorem getD_set {F : List (List Nat)} {j : Nat} {f' : List Nat} (hj : j < F.length) (k : Nat) :
    (F.set j f').getD k [] = if k = j then f' else F.getD k [] := by
  simp only [List.getD, List.getElem?_set]
  by_cases h : k = j
  · subst h; simp [hj]
  · rw [if_neg (fun e => h e.symm), if_neg h]

theorem countP_range_update (n j : Nat) (hj : j < n) (p q : Nat → Bool) (hpq : ∀ k, k ≠ j → q k = p k) (h0 : p j = false) (h1 : q j = true) :
    (List.range n).countP q = (List.range n).countP p + 1 := by
  induction n with
  | zero => omega
  | succ n ih =>
    rw [List.range_succ, List.countP_append, List.countP_append, List.countP_singleton, List.countP_singleton]
    by_cases h : j = n
    · subst h
      have : (List.range j).countP q = (List.range j).countP p := by
        apply List.countP_congr
        intro k hk
        rw [hpq k (by have := List.mem_range.1 hk; omega)]
      rw [this, h0, h1]; simp
    · rw [ih (by omega), hpq n (fun e => h e.symm)]; omega

theorem fixFace_step {n : Nat} {g : Bool} {F0 : List (List Nat)} (ht : TriMesh n F0) (hs : SimpleFaces F0) {s : OrState}
    {L : List (Nat × Option Nat)} (h : OrInv g F0 s L) {i j : Nat} {e : Nat × Nat} (hi : FixedIn g F0 L i) (hij : i ≠ j) (hj : j < F0.length)
    (hnf : ¬ FixedIn g F0 L j) (hei : e ∈ faceEdges (s.faces.getD i [])) (h1 : e.1 ∈ s.faces.getD j []) (h2 : e.2 ∈ s.faces.getD j [])
    (hne : e.1 ≠ e.2) (hsh : sharedBy s.faces e.1 e.2 = 2) :
    ∃ s', fixFace s j e = some s' ∧ SweepStep g F0 s L s' ((j, some i) :: L) := by
  have hjf : j < s.faces.length := by rw [h.lenF]; exact hj
  have hjx : j < s.fixed.length := by rw [h.lenX]; exact hj
  have ht' := triMesh_perm h.perm ht
  have hs' := simple_perm h.perm hs
  have hmem := getD_mem hjf
  have h3 := (ht' _ hmem).1
  have hnd := hs' _ hmem
  have hcurj : s.faces.getD j [] = F0.getD j [] := by
    rcases h.cur j hj with e | ⟨⟨i, e⟩, _⟩
    · exact e
    · exact absurd (Or.inl ⟨_, e⟩) hnf
  have hfix : ∀ k, k < F0.length → ((s.fixed.set j true)[k]? = some true ↔ FixedIn g F0 ((j, some i) :: L) k) := by
    intro k hk
    rw [fixedIn_cons_iff, List.getElem?_set]
    by_cases hkj : j = k
    · subst hkj; simp [hjx]
    · rw [if_neg hkj, h.fixed k hk]
      constructor
      · exact Or.inr
      · rintro (e | e)
        · exact absurd e.symm hkj
        · exact e
  have hseeds : numSeeds ((j, some i) :: L) = numSeeds L := by simp [numSeeds, List.countP_cons]
  have hnone : ∀ k, (k, (none : Option Nat)) ∈ ((j, some i) :: L) ↔ (k, none) ∈ L := by intro k; simp
  rw [fixFace, getD_of_lt hjf]
  simp only
  cases hfl : flipEdge e.1 e.2 (s.faces.getD j []) with
  | none =>
    have hopp : OppositeOn s.faces i j := by
      refine ⟨hij, e.1, e.2, hei, ?_, hsh⟩
      rcases (faceEdges_simple h3 hnd).2 _ h1 _ h2 hne with hh | hh
      · exact absurd hh (flipEdge_none h3 hfl)
      · exact hh
    refine ⟨_, rfl, ⟨?_, fun m hm => hm.cons _, hseeds, hnone, le_refl _, fun hh => Or.inl hh⟩⟩
    exact ⟨h.lenF, by simp [h.lenX], fun k hk => (h.cur k hk).imp id (fun hh => ⟨hh.1.imp (fun i hi => List.mem_cons_of_mem _ hi), hh.2⟩), hfix,
      OrientLog.prop h.log hnf hi hj hopp⟩
  | some f' =>
    obtain ⟨r1, r2, r3, r4⟩ := flipEdge_some h3 hnd hfl
    have hget : ∀ k, (s.faces.set j f').getD k [] = if k = j then f' else s.faces.getD k [] := getD_set hjf
    have hperm : List.Forall₂ List.Perm s.faces (s.faces.set j f') := by
      refine forall₂_of_getD (by simp) (fun k hk => ?_)
      rw [hget]
      split_ifs with hkj
      · subst hkj; exact (r1.perm.trans (List.reverse_perm _)).symm
      · exact List.Perm.refl _
    have hshn : ∀ a b, sharedBy (s.faces.set j f') a b = sharedBy s.faces a b := fun a b => (sharedBy_perm hperm a b).symm
    have hlog : OrientLog g F0 (s.faces.set j f') L := by
      refine h.log.congr (fun m hm => ?_) hshn
      rw [hget, if_neg]
      rintro rfl; exact hnf hm
    have hch : numChanged F0 (s.faces.set j f') = numChanged F0 s.faces + 1 := by
      unfold numChanged
      refine countP_range_update _ j hj _ _ ?_ ?_ ?_
      · intro k hk; rw [hget, if_neg hk]
      · simp only [hcurj, ne_eq, not_true_eq_false, decide_false]
      · rw [hget, if_pos rfl, ← hcurj]; simpa using r2
    refine ⟨_, rfl, ⟨?_, fun m hm => hm.cons _, hseeds, hnone, by simp only [hch]; omega, fun _ => Or.inr (by simp only [hch]; omega)⟩⟩
    refine ⟨by simp [h.lenF], by simp [h.lenX], ?_, hfix, ?_⟩
    · intro k hk
      simp only
      rw [hget]
      split_ifs with hkj
      · subst hkj
        exact Or.inr ⟨⟨i, by simp⟩, by rw [← hcurj]; exact r1⟩
      · exact (h.cur k hk).imp id (fun hh => ⟨hh.1.imp (fun i hi => List.mem_cons_of_mem _ hi), hh.2⟩)
    · refine OrientLog.prop hlog hnf hi hj ⟨hij, e.1, e.2, ?_, ?_, ?_⟩
      · simp only; rw [hget, if_neg hij]; exact hei
      · simp only; rw [hget, if_pos rfl]; exact r4
      · simp only; rw [hshn]; exact hsh

theorem orientEdge_step {n : Nat} {g : Bool} {F0 : List (List Nat)} (ht : TriMesh n F0) (hs : SimpleFaces F0) {pf : Nat → FaceBuf}
    (hb : buildPointFaces n F0 = some pf) {s : OrState}
    {L : List (Nat × Option Nat)} (h : OrInv g F0 s L) {i : Nat} {e : Nat × Nat} (hi : FixedIn g F0 L i)
    (hei : e ∈ faceEdges (s.faces.getD i [])) :
    ∃ s' L', orientEdge n pf i s e = some s' ∧ SweepStep g F0 s L s' L' ∧
      (sharedBy s.faces e.1 e.2 = 2 → ∀ j, j ≠ i → j < F0.length → e.1 ∈ s.faces.getD j [] → e.2 ∈ s.faces.getD j [] → FixedIn g F0 L' j) := by
  have ht' := triMesh_perm h.perm ht
  have hs' := simple_perm h.perm hs
  have hb' : buildPointFaces n s.faces = some pf := by rw [buildPointFaces_perm h.perm ht, hb]
  have hil := h.log.lt i hi
  have hif : i < s.faces.length := by rw [h.lenF]; exact hil
  have hmem := getD_mem hif
  obtain ⟨m1, m2, hne⟩ := (faceEdges_simple (ht' _ hmem).1 (hs' _ hmem)).1 e hei
  have he1 := (ht' _ hmem).2 _ m1
  rw [orientEdge, numEdgeFaces_simple ht' hs' hb' he1 hne]
  simp only
  by_cases hc : sharedBy s.faces e.1 e.2 = 2
  · rw [if_neg (by simpa using hc), edgeFaces_simple ht' hs' hb' he1 hne]
    simp only
    have hlen : (facesWith s.faces e.1 e.2).length = 2 := by rw [facesWith_length, hc]
    have hpair : (facesWith s.faces e.1 e.2).Pairwise (· < ·) := List.Pairwise.filter _ List.pairwise_lt_range
    have hmemW : ∀ k, k ∈ facesWith s.faces e.1 e.2 ↔ k < s.faces.length ∧ e.1 ∈ s.faces.getD k [] ∧ e.2 ∈ s.faces.getD k [] := by
      intro k; simp only [facesWith, List.mem_filter, List.mem_range, Bool.and_eq_true, decide_eq_true_eq]
    have hi' := (hmemW i).2 ⟨hif, m1, m2⟩
    obtain ⟨x, y, hxy⟩ : ∃ x y, facesWith s.faces e.1 e.2 = [x, y] := by
      match hF : facesWith s.faces e.1 e.2, hlen with
      | [x, y], _ => exact ⟨x, y, rfl⟩
    rw [hxy] at hpair hi'
    have hlt : x < y := by simpa using hpair
    obtain ⟨j, ho, hji, hjm, hall⟩ : ∃ j, otherFace i { cap := sharedBy s.faces e.1 e.2, items := facesWith s.faces e.1 e.2 } = some j ∧ j ≠ i ∧
        j ∈ facesWith s.faces e.1 e.2 ∧ ∀ k, k ∈ facesWith s.faces e.1 e.2 → k ≠ i → k = j := by
      rw [hxy]
      by_cases hxi : x = i
      · subst hxi
        refine ⟨y, by simp [otherFace], by omega, by simp, ?_⟩
        intro k hk hki; simp at hk; omega
      · have hyi : i = y := by simp at hi'; omega
        refine ⟨x, by simp [otherFace, hxi], hxi, by simp, ?_⟩
        intro k hk hki; simp at hk; omega
    rw [ho]
    simp only
    obtain ⟨j1, j2, j3⟩ := (hmemW j).1 hjm
    have hjl : j < F0.length := by rw [← h.lenF]; exact j1
    have hthe : ∀ L', FixedIn g F0 L' j → ∀ k, k ≠ i → k < F0.length → e.1 ∈ s.faces.getD k [] → e.2 ∈ s.faces.getD k [] → FixedIn g F0 L' k := by
      intro L' hL k hki hkl k1 k2
      rw [hall k ((hmemW k).2 ⟨by rw [h.lenF]; exact hkl, k1, k2⟩) hki]; exact hL
    have hfj : s.fixed[j]? = some true ∨ s.fixed[j]? = some false := by
      have : j < s.fixed.length := by rw [h.lenX]; exact hjl
      rw [List.getElem?_eq_getElem this]
      cases s.fixed[j] <;> simp
    rcases hfj with hfj | hfj
    · rw [hfj]
      exact ⟨s, L, rfl, SweepStep.refl h, fun _ => hthe L ((h.fixed j hjl).1 hfj)⟩
    · rw [hfj]
      simp only
      have hnf : ¬ FixedIn g F0 L j := by
        rw [← h.fixed j hjl, hfj]; simp
      obtain ⟨s', e', st⟩ := fixFace_step ht hs h hi (Ne.symm hji) hjl hnf hei j2 j3 hne hc
      exact ⟨s', _, e', st, fun _ => hthe _ (fixedIn_cons_iff.2 (Or.inl rfl))⟩
  · rw [if_pos (by simpa using hc)]
    exact ⟨s, L, rfl, SweepStep.refl h, fun hh => absurd hh hc⟩

/-- A fixed face is not changed by a step. -/
def KeepsFixed (g : Bool) (F0 : List (List Nat)) (s : OrState) (L : List (Nat × Option Nat)) (s' : OrState) : Prop :=
  ∀ m, FixedIn g F0 L m → s'.faces.getD m [] = s.faces.getD m []

theorem orientEdge_keeps {n : Nat} {g : Bool} {F0 : List (List Nat)} {pf : Nat → FaceBuf} {s s' : OrState}
    {L : List (Nat × Option Nat)} (h : OrInv g F0 s L) {i : Nat} {e : Nat × Nat} (eq : orientEdge n pf i s e = some s') :
    KeepsFixed g F0 s L s' := by
  intro m hm
  have hml := h.log.lt m hm
  rw [orientEdge] at eq
  cases hc : numEdgeFaces n s.faces pf e.1 e.2 with
  | none => rw [hc] at eq; simp at eq
  | some c =>
    rw [hc] at eq
    simp only at eq
    split_ifs at eq
    · cases eq; rfl
    · cases hb : edgeFaces n s.faces pf e.1 e.2 with
      | none => rw [hb] at eq; simp at eq
      | some b =>
        rw [hb] at eq
        simp only at eq
        cases ho : otherFace i b with
        | none => rw [ho] at eq; simp at eq
        | some j =>
          rw [ho] at eq
          simp only at eq
          cases hf : s.fixed[j]? with
          | none => rw [hf] at eq; simp at eq
          | some v =>
            rw [hf] at eq
            cases v with
            | true => simp at eq; rw [eq]
            | false =>
              simp only at eq
              have hmj : m ≠ j := by
                rintro rfl
                rw [(h.fixed m hml).2 hm] at hf; simp at hf
              rw [fixFace] at eq
              cases hg : s.faces[j]? with
              | none => rw [hg] at eq; simp at eq
              | some f =>
                rw [hg] at eq
                simp only at eq
                have hjl := (List.getElem?_eq_some_iff.1 hg).1
                cases hfl : flipEdge e.1 e.2 f with
                | none => rw [hfl] at eq; simp at eq; rw [← eq]
                | some f' =>
                  rw [hfl] at eq; simp at eq; rw [← eq]
                  simp only
                  rw [getD_set hjl, if_neg hmj]

theorem orientEdges_step {n : Nat} {g : Bool} {F0 : List (List Nat)} (ht : TriMesh n F0) (hs : SimpleFaces F0) {pf : Nat → FaceBuf}
    (hb : buildPointFaces n F0 = some pf) {i : Nat} (es : List (Nat × Nat)) {s : OrState}
    {L : List (Nat × Option Nat)} (h : OrInv g F0 s L) (hi : FixedIn g F0 L i)
    (hei : ∀ e ∈ es, e ∈ faceEdges (s.faces.getD i [])) :
    ∃ s' L', orientEdges n pf i es s = some s' ∧ SweepStep g F0 s L s' L' ∧
      ∀ e ∈ es, sharedBy F0 e.1 e.2 = 2 → ∀ j, j ≠ i → j < F0.length → e.1 ∈ F0.getD j [] → e.2 ∈ F0.getD j [] → FixedIn g F0 L' j := by
  induction es generalizing s L with
  | nil => exact ⟨s, L, rfl, SweepStep.refl h, by simp⟩
  | cons e es ih =>
    obtain ⟨s1, L1, e1, st1, n1⟩ := orientEdge_step ht hs hb h hi (hei e (by simp))
    have hk := orientEdge_keeps h e1 i hi
    obtain ⟨s2, L2, e2, st2, n2⟩ := ih st1.1 (st1.2.1 i hi) (by intro x hx; rw [hk]; exact hei x (by simp [hx]))
    refine ⟨s2, L2, by rw [orientEdges, e1]; exact e2, st1.trans st2, ?_⟩
    intro x hx
    rcases List.mem_cons.1 hx with rfl | hx
    · intro hsh j hji hjl j1 j2
      refine st2.2.1 j (n1 ?_ j hji hjl ?_ ?_)
      · rw [← sharedBy_perm h.perm]; exact hsh
      · have := h.perm.get (i := j) hjl (by rw [h.lenF]; exact hjl)
        have h1 : F0.getD j [] = F0[j] := by simp [List.getD, List.getElem?_eq_getElem hjl]
        have h2 : s.faces.getD j [] = s.faces[j]'(by rw [h.lenF]; exact hjl) := by simp [List.getD, List.getElem?_eq_getElem (show j < s.faces.length by rw [h.lenF]; exact hjl)]
        rw [h2]; rw [h1] at j1; exact this.mem_iff.1 j1
      · have := h.perm.get (i := j) hjl (by rw [h.lenF]; exact hjl)
        have h1 : F0.getD j [] = F0[j] := by simp [List.getD, List.getElem?_eq_getElem hjl]
        have h2 : s.faces.getD j [] = s.faces[j]'(by rw [h.lenF]; exact hjl) := by simp [List.getD, List.getElem?_eq_getElem (show j < s.faces.length by rw [h.lenF]; exact hjl)]
        rw [h2]; rw [h1] at j2; exact this.mem_iff.1 j2
    · exact n2 x hx

theorem ManifoldNbr.edge {n : Nat} {F : List (List Nat)} (ht : TriMesh n F) (hs : SimpleFaces F) {G : List (List Nat)} (hp : List.Forall₂ List.Perm F G)
    {i j : Nat} (h : ManifoldNbr F i j) :
    ∃ e ∈ faceEdges (G.getD i []), sharedBy F e.1 e.2 = 2 ∧ e.1 ∈ F.getD j [] ∧ e.2 ∈ F.getD j [] := by
  obtain ⟨_, hi, hj, a, b, hab, a1, b1, a2, b2, hsh⟩ := h
  have hil : i < G.length := by rw [← hp.length_eq]; exact hi
  have hperm : (F.getD i []).Perm (G.getD i []) := by
    have := hp.get (i := i) hi hil
    simpa [List.getD, List.getElem?_eq_getElem hi, List.getElem?_eq_getElem hil] using this
  have hm := getD_mem hil
  rcases (faceEdges_simple ((triMesh_perm hp ht) _ hm).1 ((simple_perm hp hs) _ hm)).2 a (hperm.mem_iff.1 a1) b (hperm.mem_iff.1 b1) hab with he | he
  · exact ⟨_, he, hsh, a2, b2⟩
  · exact ⟨_, he, by rw [sharedBy_comm]; exact hsh, b2, a2⟩

theorem orientFace_step {n : Nat} {g : Bool} {F0 : List (List Nat)} (ht : TriMesh n F0) (hs : SimpleFaces F0) {pf : Nat → FaceBuf}
    (hb : buildPointFaces n F0 = some pf) {i : Nat} (hil : i < F0.length) {s : OrState}
    {L : List (Nat × Option Nat)} (h : OrInv g F0 s L) :
    ∃ s' L', orientFace n pf i s = some s' ∧ SweepStep g F0 s L s' L' ∧
      (FixedIn g F0 L i → ∀ j, ManifoldNbr F0 i j → FixedIn g F0 L' j) := by
  have hif : i < s.faces.length := by rw [h.lenF]; exact hil
  have hix : i < s.fixed.length := by rw [h.lenX]; exact hil
  have ht' := triMesh_perm h.perm ht
  rw [orientFace, getD_of_lt hif, List.getElem?_eq_getElem hix]
  cases hv : s.fixed[i] with
  | false =>
    refine ⟨s, L, rfl, SweepStep.refl h, fun hh => ?_⟩
    have := (h.fixed i hil).2 hh
    rw [List.getElem?_eq_getElem hix, hv] at this; simp at this
  | true =>
    have hi : FixedIn g F0 L i := (h.fixed i hil).1 (by rw [List.getElem?_eq_getElem hix, hv])
    simp only
    rw [edges3_tri (ht' _ (getD_mem hif)).1]
    simp only
    obtain ⟨s', L', e, st, hn⟩ := orientEdges_step ht hs hb (faceEdges (s.faces.getD i [])) h hi (fun e he => he)
    refine ⟨s', L', e, st, fun _ j hj => ?_⟩
    obtain ⟨x, hx, x1, x2, x3⟩ := hj.edge ht hs h.perm
    exact hn x hx x1 j (Ne.symm hj.1) hj.2.2.1 x2 x3

theorem orientSweep_step {n : Nat} {g : Bool} {F0 : List (List Nat)} (ht : TriMesh n F0) (hs : SimpleFaces F0) {pf : Nat → FaceBuf}
    (hb : buildPointFaces n F0 = some pf) (ks : List Nat) (hk : ∀ k ∈ ks, k < F0.length) {s : OrState}
    {L : List (Nat × Option Nat)} (h : OrInv g F0 s L) :
    ∃ s' L', orientSweep n pf ks s = some s' ∧ SweepStep g F0 s L s' L' ∧
      ∀ i ∈ ks, FixedIn g F0 L i → ∀ j, ManifoldNbr F0 i j → FixedIn g F0 L' j := by
  induction ks generalizing s L with
  | nil => exact ⟨s, L, rfl, SweepStep.refl h, by simp⟩
  | cons k ks ih =>
    obtain ⟨s1, L1, e1, st1, n1⟩ := orientFace_step ht hs hb (hk k (by simp)) h
    obtain ⟨s2, L2, e2, st2, n2⟩ := ih (fun x hx => hk x (by simp [hx])) st1.1
    refine ⟨s2, L2, by rw [orientSweep, e1]; exact e2, st1.trans st2, ?_⟩
    intro i hi hf j hj
    rcases List.mem_cons.1 hi with rfl | hi
    · exact st2.2.1 j (n1 hf j hj)
    · exact n2 i hi (st1.2.1 i hf) j hj

theorem idxOf?_false {l : List Bool} {k : Nat} (h : l.idxOf? false = some k) : l[k]? = some false ∧ ∀ m, m < k → l[m]? = some true := by
  rw [List.idxOf?, List.findIdx?_eq_some_iff_getElem] at h
  obtain ⟨hk, h1, h2⟩ := h
  refine ⟨?_, fun m hm => ?_⟩
  · rw [List.getElem?_eq_getElem hk]; simpa using h1
  · have := h2 m hm
    rw [List.getElem?_eq_getElem (by omega)]
    simpa using this

/-- Number of faces not yet fixed. -/
def numUnfixed (F0 : List (List Nat)) (s : OrState) : Nat := (List.range F0.length).countP (fun k => decide (s.fixed[k]? ≠ some true))

theorem numUnfixed_lt {g : Bool} {F0 : List (List Nat)} {s s' : OrState} {L L' : List (Nat × Option Nat)} (h : OrInv g F0 s L) (h' : OrInv g F0 s' L')
    (hsub : ∀ m, FixedIn g F0 L m → FixedIn g F0 L' m) {k : Nat} (hk : k < F0.length) (h1 : ¬ FixedIn g F0 L k) (h2 : FixedIn g F0 L' k) :
    numUnfixed F0 s' < numUnfixed F0 s := by
  unfold numUnfixed
  have hle : (List.range F0.length).countP (fun m => decide (s'.fixed[m]? ≠ some true)) ≤
      (List.range F0.length).countP (fun m => decide (s.fixed[m]? ≠ some true) && decide (m ≠ k)) := by
    apply List.countP_mono_left
    intro m hm hh
    have hml := List.mem_range.1 hm
    simp only [ne_eq, decide_eq_true_eq, Bool.and_eq_true, h'.fixed m hml, h.fixed m hml] at hh ⊢
    refine ⟨fun e => hh (hsub m e), ?_⟩
    rintro rfl; exact hh h2
  refine lt_of_le_of_lt hle ?_
  rw [countP_range_update F0.length k hk (fun m => decide (s.fixed[m]? ≠ some true) && decide (m ≠ k)) (fun m => decide (s.fixed[m]? ≠ some true))]
  · omega
  · intro m hm; simp [hm]
  · simp
  · simp only [ne_eq, decide_eq_true_eq, h.fixed k hk]; exact h1

theorem OrInv.seed {g : Bool} {F0 : List (List Nat)} {s : OrState} {L : List (Nat × Option Nat)} (h : OrInv g F0 s L) {k : Nat}
    (hkl : k < F0.length) (hk1 : s.fixed[k]? = some false) (hk2 : ∀ m, m < k → s.fixed[m]? = some true) :
    OrInv g F0 { s with fixed := s.fixed.set k true, flipped := false } ((k, none) :: L) := by
  have hkx : k < s.fixed.length := by rw [h.lenX]; exact hkl
  have hnf : ¬ FixedIn g F0 L k := by rw [← h.fixed k hkl, hk1]; simp
  have hlow : ∀ m, m < k → FixedIn g F0 L m := fun m hm => (h.fixed m (by omega)).1 (hk2 m hm)
  have hcurk : s.faces.getD k [] = F0.getD k [] := by
    rcases h.cur k hkl with e | ⟨⟨i, e⟩, _⟩
    · exact e
    · exact absurd (Or.inl ⟨_, e⟩) hnf

  refine ⟨h.lenF, by simp [h.lenX], fun m hm => (h.cur m hm).imp id (fun hh => ⟨hh.1.imp (fun i hi => List.mem_cons_of_mem _ hi), hh.2⟩), ?_,
    OrientLog.seed h.log hnf hlow hkl hcurk⟩
  intro m hm
  simp only
  rw [fixedIn_cons_iff, List.getElem?_set]
  by_cases hkm : k = m
  · subst hkm; simp [hkx]
  · rw [if_neg hkm, h.fixed m hm]
    exact ⟨Or.inr, fun hh => hh.resolve_left (fun e => hkm e.symm)⟩

theorem orientLoop_spec {n : Nat} {g : Bool} {F0 : List (List Nat)} (ht : TriMesh n F0) (hs : SimpleFaces F0) {pf : Nat → FaceBuf}
    (hb : buildPointFaces n F0 = some pf) (fuel : Nat) {s : OrState}
    {L : List (Nat × Option Nat)} (h : OrInv g F0 s L) (hfuel : numUnfixed F0 s < fuel) (hseeds : numSeeds L ≤ numChanged F0 s.faces)
    (hnb : ∀ i j, (i, none) ∈ L → ManifoldNbr F0 i j → FixedIn g F0 L j) :
    ∃ s' L', orientLoop n pf fuel s = some s' ∧ OrInv g F0 s' L' ∧ numSeeds L' ≤ 1 + numChanged F0 s'.faces ∧
      (∀ i j, (i, none) ∈ L' → ManifoldNbr F0 i j → FixedIn g F0 L' j) ∧
      (∀ k, (k, none) ∈ L → (k, none) ∈ L') ∧ ((∃ k, k < F0.length ∧ ¬ FixedIn g F0 L k) → ∃ k, (k, none) ∈ L') := by
  induction fuel generalizing s L with
  | zero => omega
  | succ fuel ih =>
    rw [orientLoop]
    cases hx : s.fixed.idxOf? false with
    | none =>
      refine ⟨s, L, rfl, h, by omega, hnb, fun _ hk => hk, ?_⟩
      rintro ⟨k, hk, hnf⟩
      refine absurd ?_ hnf
      have hkx : k < s.fixed.length := by rw [h.lenX]; exact hk
      rw [← h.fixed k hk, List.getElem?_eq_getElem hkx]
      have : false ∉ s.fixed := by
        intro hmem
        rw [List.idxOf?, List.findIdx?_eq_none_iff] at hx
        have := hx false hmem
        simp at this
      cases hv : s.fixed[k] with
      | true => rfl
      | false => exact absurd (hv ▸ List.getElem_mem hkx) this
    | some k =>
      obtain ⟨hk1, hk2⟩ := idxOf?_false hx
      have hkx : k < s.fixed.length := (List.getElem?_eq_some_iff.1 hk1).1
      have hkl : k < F0.length := by rw [← h.lenX]; exact hkx
      have hnf : ¬ FixedIn g F0 L k := by rw [← h.fixed k hkl, hk1]; simp
      have h1 := h.seed hkl hk1 hk2
      obtain ⟨s', L', e, st, hn⟩ := orientSweep_step ht hs hb (List.range s.faces.length)
        (fun x hx => by rw [← h.lenF]; exact List.mem_range.1 hx) h1
      simp only
      rw [e]
      simp only
      obtain ⟨i1, i2, i3, i4, i5, i6⟩ := st
      simp only at i5 i6
      have hsd : numSeeds ((k, none) :: L) = numSeeds L + 1 := by simp [numSeeds, List.countP_cons]
      have hnb' : ∀ i j, (i, none) ∈ L' → ManifoldNbr F0 i j → FixedIn g F0 L' j := by
        intro i j hi hj
        have hiL := (i4 i).1 hi
        exact hn i (List.mem_range.2 (by rw [h.lenF]; exact hj.2.1)) (Or.inl ⟨none, hiL⟩) j hj
      have hk' : ∃ k, (k, none) ∈ L' := ⟨k, (i4 k).2 (by simp)⟩
      split_ifs with hfl
      · have hlt : numChanged F0 s.faces < numChanged F0 s'.faces := by
          rcases i6 hfl with hh | hh
          · simp at hh
          · exact hh
        obtain ⟨s2, L2, e2, j1, j2, j3, j4⟩ := ih i1
          (by
            have := numUnfixed_lt h i1 (fun m hm => i2 m (hm.cons _)) hkl hnf (i2 k (fixedIn_cons_iff.2 (Or.inl rfl)))
            omega)
          (by omega) hnb'
        exact ⟨s2, L2, e2, j1, j2, j3, fun m hm => j4.1 m ((i4 m).2 (by simp [hm])), fun _ => hk'.imp (fun q hq => j4.1 q hq)⟩
      · exact ⟨s', L', rfl, i1, by omega, hnb', fun m hm => (i4 m).2 (by simp [hm]), fun _ => hk'⟩

theorem orInv_init (g : Bool) (faces : List (List Nat)) :
    OrInv g faces { faces := faces, fixed := (List.replicate faces.length false).set 0 g, flipped := false } [] := by
  refine ⟨rfl, by simp, fun _ _ => Or.inl rfl, ?_, OrientLog.nil⟩
  intro k hk
  simp only [List.getElem?_set, List.length_replicate]
  constructor
  · intro h
    split_ifs at h with h1 h2
    · simp at h; exact Or.inr ⟨h1.symm, h, by rintro rfl; simp at hk⟩
    · simp [List.getElem?_replicate, hk] at h
  · rintro (⟨p, hp⟩ | ⟨rfl, hg, _⟩)
    · simp at hp
    · simp [hk, hg]

/-- **C23 (partial).** On a triangle mesh with valid indices and no repeated corners, whatever value the
uninitialised flag of face 0 has: the propagation terminates without out-of-range or uninitialised reads; every
face is kept or reversed as a cycle; and there is a propagation history in which

* the faces that are fixed at the end are exactly those in the history (and face 0 if its flag was set);
* a face entered by propagation traverses a manifold edge shared with an earlier fixed face in the opposite direction
  in the final mesh;
* a seed is the lowest-numbered face not fixed at that moment, keeps its orientation, and all its neighbours across
  manifold edges are fixed in the end;
* there is at least one seed when there are two or more faces, and at most one more than there are reversed faces;
* only faces in the history are reversed.

Missing from C23: agreement across *all* manifold edges between fixed faces (`C23_orientable_left_inconsistent_false`). -/
theorem C23_orientation_partial (n : Nat) (faces : List (List Nat)) (ht : TriMesh n faces) (hs : SimpleFaces faces) (pf : Nat → FaceBuf)
    (hb : buildPointFaces n faces = some pf) (g : Bool) :
    ∃ s L, orient n pf g faces = some s ∧
      List.Forall₂ (fun f f' => f' = f ∨ f' ~r f.reverse) faces s.faces ∧
      OrientLog g faces s.faces L ∧
      (∀ k, k < faces.length → (s.fixed[k]? = some true ↔ FixedIn g faces L k)) ∧
      (∀ k, k < faces.length → s.faces.getD k [] ≠ faces.getD k [] → ∃ i, (k, some i) ∈ L) ∧
      (∀ i j, (i, none) ∈ L → ManifoldNbr faces i j → FixedIn g faces L j) ∧
      numSeeds L ≤ 1 + numChanged faces s.faces ∧ (2 ≤ faces.length → 1 ≤ numSeeds L) := by
  have h0 := orInv_init g faces
  obtain ⟨s, L, e, h1, h2, h3, _, h5⟩ := orientLoop_spec ht hs hb (faces.length + 1) h0
    (by
      unfold numUnfixed
      have := List.countP_le_length (p := fun k => decide (((List.replicate faces.length false).set 0 g)[k]? ≠ some true)) (l := List.range faces.length)
      rw [List.length_range] at this
      simp only; omega)
    (by simp [numSeeds]) (by simp)
  refine ⟨s, L, e, forall₂_of_getD h1.lenF (fun k hk => (h1.cur k hk).imp id (fun hh => hh.2)), h1.log, h1.fixed, ?_, h3, h2, ?_⟩
  · -- reversed faces are in the history as propagated faces
    intro k hk hne
    rcases h1.cur k hk with e' | ⟨hf, _⟩
    · exact absurd e' hne
    · exact hf
  · intro hl
    obtain ⟨k, hk⟩ := h5 ⟨1, by omega, by
      rintro (⟨p, hp⟩ | ⟨h, _⟩)
      · simp at hp
      · omega⟩
    unfold numSeeds
    rw [Nat.succ_le_iff, List.countP_pos_iff]
    exact ⟨_, hk, by simp⟩

/-! ### A consistently oriented mesh is left alone -/

/-- Every edge that belongs to exactly two faces is traversed by them in opposite directions. -/
def ConsistentlyOriented (F : List (List Nat)) : Prop :=
  ∀ i j a b, i ≠ j → i < F.length → j < F.length → sharedBy F a b = 2 → (a, b) ∈ faceEdges (F.getD i []) → (a, b) ∉ faceEdges (F.getD j [])

/-- **C23 is false of the code**: a strip of four triangles `0 ~ 3 ~ 1 ~ 2` that can be oriented consistently (third
component) is left with all faces fixed and faces 1 and 2 traversing their common edge `(3,4)` in the same direction. -/
theorem C23_orientable_left_inconsistent_false :
    ∃ pf s, buildPointFaces 6 [[0, 1, 2], [3, 2, 4], [3, 4, 5], [2, 1, 3]] = some pf ∧
      orient 6 pf false [[0, 1, 2], [3, 2, 4], [3, 4, 5], [2, 1, 3]] = some s ∧
      s.fixed = [true, true, true, true] ∧ ¬ ConsistentlyOriented s.faces ∧
      ConsistentlyOriented [[0, 1, 2], [2, 3, 4], [4, 3, 5], [2, 1, 3]] := by
  refine ⟨_, _, rfl, rfl, by decide, ?_, ?_⟩
  · intro h
    exact h 1 2 3 4 (by decide) (by decide) (by decide) (by decide) (by decide) (by decide)
  · intro i j a b hij hi hj _ h1 h2
    simp only [List.length_cons, List.length_nil] at hi hj
    have e1 : i = 0 ∨ i = 1 ∨ i = 2 ∨ i = 3 := by omega
    have e2 : j = 0 ∨ j = 1 ∨ j = 2 ∨ j = 3 := by omega
    rcases e1 with rfl | rfl | rfl | rfl <;> rcases e2 with rfl | rfl | rfl | rfl <;>
      simp [faceEdges, edgesFrom] at hij h1 h2 <;> omega

theorem consistent_step {n : Nat} {faces : List (List Nat)} (ht : TriMesh n faces) (hs : SimpleFaces faces)
    (hc : ConsistentlyOriented faces) {pf : Nat → FaceBuf} (hb : buildPointFaces n faces = some pf) {g : Bool} {s s' : OrState} {L : List (Nat × Option Nat)}
    (h : OrInv g faces s L) (hF : s.faces = faces) (hfl : s.flipped = false) {i : Nat} (hil : i < faces.length) {e : Nat × Nat}
    (hei : e ∈ faceEdges (faces.getD i [])) (eq : orientEdge n pf i s e = some s') : s'.faces = faces ∧ s'.flipped = false := by
  have hmem := getD_mem hil
  obtain ⟨m1, m2, hne⟩ := (faceEdges_simple (ht _ hmem).1 (hs _ hmem)).1 e hei
  have he1 := (ht _ hmem).2 _ m1
  rw [orientEdge, hF, numEdgeFaces_simple ht hs hb he1 hne] at eq
  simp only at eq
  split_ifs at eq with hsh
  · cases eq; exact ⟨hF, hfl⟩
  · have hsh' : sharedBy faces e.1 e.2 = 2 := by simpa using hsh
    rw [edgeFaces_simple ht hs hb he1 hne] at eq
    simp only at eq
    cases ho : otherFace i { cap := sharedBy faces e.1 e.2, items := facesWith faces e.1 e.2 } with
    | none => rw [ho] at eq; simp at eq
    | some j =>
      rw [ho] at eq
      simp only at eq
      have hji : j ≠ i ∧ j < faces.length := by
        have hlen : (facesWith faces e.1 e.2).length = 2 := by rw [facesWith_length, hsh']
        have hpair : (facesWith faces e.1 e.2).Pairwise (· < ·) := List.Pairwise.filter _ List.pairwise_lt_range
        have hlt : ∀ k ∈ facesWith faces e.1 e.2, k < faces.length := fun k hk => List.mem_range.1 (List.mem_filter.1 hk).1
        match hW : facesWith faces e.1 e.2, hlen with
        | [x, y], _ =>
          rw [hW] at hpair ho hlt
          have hxy : x < y := by simpa using hpair
          simp only [otherFace, List.getElem?_cons_zero] at ho
          split_ifs at ho with hx
          · simp at ho; subst ho; exact ⟨by omega, hlt y (by simp)⟩
          · simp at ho; subst ho; exact ⟨hx, hlt x (by simp)⟩
      have hg := getD_of_lt hji.2
      cases hf : s.fixed[j]? with
      | none => rw [hf] at eq; simp at eq
      | some v =>
        rw [hf] at eq
        cases v with
        | true => simp at eq; rw [← eq]; exact ⟨hF, hfl⟩
        | false =>
          simp only at eq
          rw [fixFace, hF, hg] at eq
          simp only at eq
          cases hfe : flipEdge e.1 e.2 (faces.getD j []) with
          | none => rw [hfe] at eq; simp at eq; rw [← eq]; exact ⟨rfl, hfl⟩
          | some f' =>
            exfalso
            have hmj := getD_mem hji.2
            obtain ⟨_, _, h3, _⟩ := flipEdge_some (ht _ hmj).1 (hs _ hmj) hfe
            exact hc i j e.1 e.2 (Ne.symm hji.1) hil hji.2 hsh' hei h3

theorem consistent_edges {n : Nat} {faces : List (List Nat)} (ht : TriMesh n faces) (hs : SimpleFaces faces)
    (hc : ConsistentlyOriented faces) {pf : Nat → FaceBuf} (hb : buildPointFaces n faces = some pf) {g : Bool} {i : Nat}
    (es : List (Nat × Nat)) {s s' : OrState} {L : List (Nat × Option Nat)}
    (h : OrInv g faces s L) (hF : s.faces = faces) (hfl : s.flipped = false) (hi : FixedIn g faces L i)
    (hei : ∀ e ∈ es, e ∈ faceEdges (faces.getD i [])) (eq : orientEdges n pf i es s = some s') : s'.faces = faces ∧ s'.flipped = false := by
  induction es generalizing s L with
  | nil => cases eq; exact ⟨hF, hfl⟩
  | cons e es ih =>
    obtain ⟨s1, L1, e1, st1, _⟩ := orientEdge_step ht hs hb h hi (by rw [hF]; exact hei e (by simp))
    obtain ⟨a, b⟩ := consistent_step ht hs hc hb h hF hfl (h.log.lt i hi) (hei e (by simp)) e1
    rw [orientEdges, e1] at eq
    exact ih st1.1 a b (st1.2.1 i hi) (fun x hx => hei x (by simp [hx])) eq

theorem consistent_sweep {n : Nat} {faces : List (List Nat)} (ht : TriMesh n faces) (hs : SimpleFaces faces)
    (hc : ConsistentlyOriented faces) {pf : Nat → FaceBuf} (hb : buildPointFaces n faces = some pf) {g : Bool}
    (ks : List Nat) (hk : ∀ k ∈ ks, k < faces.length) {s s' : OrState} {L : List (Nat × Option Nat)}
    (h : OrInv g faces s L) (hF : s.faces = faces) (hfl : s.flipped = false) (eq : orientSweep n pf ks s = some s') :
    s'.faces = faces ∧ s'.flipped = false := by
  induction ks generalizing s L with
  | nil => cases eq; exact ⟨hF, hfl⟩
  | cons k ks ih =>
    have hkl := hk k (by simp)
    obtain ⟨s1, L1, e1, st1, _⟩ := orientFace_step ht hs hb hkl h
    rw [orientSweep, e1] at eq
    have hkx : k < s.fixed.length := by rw [h.lenX]; exact hkl
    have hres : s1.faces = faces ∧ s1.flipped = false := by
      have e1' := e1
      rw [orientFace, hF, getD_of_lt hkl, List.getElem?_eq_getElem hkx] at e1'
      cases hv : s.fixed[k] with
      | false => rw [hv] at e1'; simp at e1'; rw [← e1']; exact ⟨hF, hfl⟩
      | true =>
        rw [hv] at e1'
        simp only [edges3_tri (ht _ (getD_mem hkl)).1] at e1'
        exact consistent_edges ht hs hc hb _ h hF hfl ((h.fixed k hkl).1 (by rw [List.getElem?_eq_getElem hkx, hv])) (fun e he => he) e1'
    exact ih (fun x hx => hk x (by simp [hx])) st1.1 hres.1 hres.2 eq

/-- A mesh that is already consistently oriented is returned unchanged. -/
theorem C23_consistent_unchanged (n : Nat) (faces : List (List Nat)) (ht : TriMesh n faces) (hs : SimpleFaces faces)
    (hc : ConsistentlyOriented faces) (pf : Nat → FaceBuf) (hb : buildPointFaces n faces = some pf) (g : Bool) :
    ∃ s, orient n pf g faces = some s ∧ s.faces = faces := by
  have h0 : OrInv g faces { faces := faces, fixed := (List.replicate faces.length false).set 0 g, flipped := false } [] := orInv_init g faces
  obtain ⟨s, _, e, _⟩ := C23_orientation_partial n faces ht hs pf hb g
  refine ⟨s, e, ?_⟩
  rw [orient, orientLoop] at e
  cases hx : ((List.replicate faces.length false).set 0 g).idxOf? false with
  | none => simp only [hx] at e; cases e; rfl
  | some k =>
    simp only [hx] at e
    obtain ⟨hk1, hk2⟩ := idxOf?_false hx
    have hkl : k < faces.length := by have := (List.getElem?_eq_some_iff.1 hk1).1; simpa using this
    have h1 := h0.seed hkl hk1 hk2
    obtain ⟨s1, L1, e1, _⟩ := orientSweep_step ht hs hb (List.range faces.length) (fun x hx => List.mem_range.1 hx) h1
    obtain ⟨c1, c2⟩ := consistent_sweep ht hs hc hb _ (fun x hx => List.mem_range.1 hx) h1 rfl rfl e1
    rw [e1] at e
    simp only [c2] at e
    cases e
    exact c1

-- the tetrahedron is consistently oriented; with one face reversed it is repaired
example : (buildPointFaces 4 [[0, 1, 2], [0, 1, 3], [1, 3, 2], [0, 2, 3]]).bind (fun pf =>
    (orient 4 pf false [[0, 1, 2], [0, 1, 3], [1, 3, 2], [0, 2, 3]]).map (·.faces)) = some [[0, 1, 2], [1, 0, 3], [1, 3, 2], [0, 2, 3]] := by
  decide +kernel

/-- The uninitialised flag matters: the same mesh is not repaired when `fixed[0]` happens to be `true`. -/
theorem C23_uninitialised_flag_false :
    ∃ pf s s', buildPointFaces 4 [[0, 1, 2], [0, 1, 3], [1, 3, 2], [0, 2, 3]] = some pf ∧
      orient 4 pf false [[0, 1, 2], [0, 1, 3], [1, 3, 2], [0, 2, 3]] = some s ∧
      orient 4 pf true [[0, 1, 2], [0, 1, 3], [1, 3, 2], [0, 2, 3]] = some s' ∧
      s.faces.getD 1 [] = [1, 0, 3] ∧ s'.faces.getD 1 [] = [0, 1, 3] := by
  refine ⟨_, _, _, rfl, rfl, rfl, by decide +kernel, by decide +kernel⟩

/-- With a repeated corner an uninitialised cell of the edge list is read. -/
theorem C23_repeated_corner_undefined :
    ∃ pf, buildPointFaces 2 [[0, 0, 1]] = some pf ∧ orient 2 pf false [[0, 0, 1]] = none := by
  refine ⟨_, rfl, by decide +kernel⟩

end VoroCrust
