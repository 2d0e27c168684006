import Verif.Model.Interior
import Verif.Props.Cover
import Mathlib.Tactic.SplitIfs
import Mathlib.Tactic.FinCases
import Mathlib.Data.List.Induction
import Mathlib.Algebra.BigOperators.Group.Finset.Basic

/-!
# C48, C62, C72: imposed seeds

Trees of the mesher, buffers of the feature trees, acceptance and counting of imposed seeds.
-/

namespace VoroCrust

/-! ## Trees -/

/-- The tree holds exactly the seeds `xs`, and `old` leads back to them. -/
structure MTree.Holds (T : MTree) (xs : List SeedRec) : Prop where
  tree : RealTree T.P T.ln
  dim : T.P.dim = 3
  num : T.P.num = xs.length
  old : ∀ i, i < xs.length → ∃ o s, T.old i = some o ∧ xs[o]? = some s ∧ T.P.pts i = s.x
  onto : ∀ o, o < xs.length → ∃ i, i < xs.length ∧ T.old i = some o
  inj : ∀ i j o, i < xs.length → j < xs.length → T.old i = some o → T.old j = some o → i = j

theorem reEnumerate_store {κ : Type} {P : PointStore κ} {ln : Links} {r : ReEnum κ} (h : reEnumerate P ln = some r) : r.store.lt = P.lt ∧ r.store.dim = P.dim := by
  unfold reEnumerate at h
  split at h
  · simp at h
  · split at h
    · simp at h
    · split at h
      · simp at h
      · simp only at h
        split at h
        · simp only [Option.some.injEq] at h
          subst h
          exact ⟨rfl, rfl⟩
        · simp at h

theorem recStore_pts {xs : List SeedRec} {i : Nat} {s : SeedRec} (h : xs[i]? = some s) : (recStore xs).pts i = s.x := by
  simp [recStore, h]

theorem recStore_num (xs : List SeedRec) : (recStore xs).num = xs.length := rfl

theorem recTree (rf : Bool) {xs : List SeedRec} (hne : xs ≠ []) : ∃ ln, buildBalanced (recStore xs) rf = some ln ∧ RealTree (recStore xs) ln := by
  obtain ⟨ln, root, e, -, -, -⟩ := C05_balanced_rebuild (recStore xs) realLt_asymm (by simp [recStore]) (List.length_pos_iff.2 hne) rf
  exact ⟨ln, e, rfl, by simp [recStore], BuiltTree.rebuilt _ _ _ e⟩

theorem meshTree_spec {alloc : Nat} {xs : List SeedRec} (hne : xs ≠ []) (ha : xs.length ≤ alloc) : ∃ T, meshTree alloc xs = some T ∧ T.Holds xs := by
  obtain ⟨ln, e, hT⟩ := recTree true hne
  obtain ⟨r, er, hn, h1, h2, -, -⟩ := C11_reenumeration_bijection (recStore xs) ln hT.2.2 hT.2.1 realLt_asymm
  obtain ⟨q1, q2⟩ := reEnumerate_store er
  refine ⟨⟨r.store, r.links, r.oldIndex⟩, ?_, ⟨⟨q1, by rw [q2]; simp [recStore], BuiltTree.reenumerated r hT.2.2 er⟩, q2, hn, ?_, ?_, ?_⟩⟩
  · unfold meshTree
    rw [if_neg (by omega), e]
    simp only [er]
  · intro i hi
    obtain ⟨c, hc, hc1, -, hc2⟩ := h1 i hi
    have hc' : c < xs.length := hc
    refine ⟨c, xs[c], hc1, List.getElem?_eq_getElem hc', ?_⟩
    simp only
    rw [hc2, recStore_pts (List.getElem?_eq_getElem hc')]
  · intro o ho
    obtain ⟨i, hi, -, hi2, -⟩ := h2 o ho
    exact ⟨i, hi, hi2⟩
  · intro i j o hi hj ei ej
    obtain ⟨c, -, hc1, hc2, -⟩ := h1 i hi
    obtain ⟨c', -, hc1', hc2', -⟩ := h1 j hj
    have : c = o := Option.some.inj (hc1.symm.trans ei)
    have h' : c' = o := Option.some.inj (hc1'.symm.trans ej)
    subst this h'
    exact Option.some.inj (hc2.symm.trans hc2')

theorem closestRec_spec {T : MTree} {xs : List SeedRec} (h : T.Holds xs) (x : Nat → ℝ) :
    ∃ s o, closestRec T xs x = some (s, o, euclid 3 x s.x) ∧ xs[o]? = some s ∧ ∀ q ∈ xs, euclid 3 x s.x ≤ euclid 3 x q.x := by
  obtain ⟨c, b, e, h1 | h1⟩ := C06_closest_is_exhaustive T.P T.ln h.tree (fun _ => true) x true ⊤ le_top
  · obtain ⟨hc, -, hb, -, hmin⟩ := h1
    rw [h.num] at hc
    obtain ⟨o, s, h2, h3, h4⟩ := h.old c hc
    rw [h.dim, h4] at hb
    refine ⟨s, o, ?_, h3, ?_⟩
    · unfold closestRec
      rw [e, hb]
      simp only [h2, h3]
      rw [if_pos (by rw [h.num]; exact hc)]
    · intro q hq
      obtain ⟨k, hk, rfl⟩ := List.mem_iff_getElem.1 hq
      obtain ⟨i, hi, hi2⟩ := h.onto k hk
      obtain ⟨o', s', h5, h6, h7⟩ := h.old i hi
      have : o' = k := Option.some.inj (h5.symm.trans hi2)
      subst this
      rw [List.getElem?_eq_getElem hk] at h6
      have := hmin i (by rw [h.num]; exact hi) rfl
      rw [h.dim, h4, h7, ← Option.some.inj h6] at this
      exact this
  · exact absurd (h1.2.2 0 h.tree.num_pos rfl) (by simp)

theorem oldIndices_spec {T : MTree} {xs : List SeedRec} (h : T.Holds xs) {l : List Nat} (hl : ∀ i ∈ l, i < xs.length) (hnd : l.Nodup) :
    ∃ os, oldIndices T l = some os ∧ os.Nodup ∧ ∀ o, o ∈ os ↔ ∃ i ∈ l, T.old i = some o := by
  induction l with
  | nil => exact ⟨[], rfl, List.nodup_nil, by simp⟩
  | cons i l ih =>
    obtain ⟨os, e, h1, h2⟩ := ih (fun j hj => hl j (by simp [hj])) (List.nodup_cons.1 hnd).2
    have hi := hl i (by simp)
    obtain ⟨o, s, h3, h4, h5⟩ := h.old i hi
    refine ⟨o :: os, ?_, ?_, ?_⟩
    · unfold oldIndices
      rw [if_pos (by rw [h.num]; exact hi), h3, e]
    · refine List.nodup_cons.2 ⟨fun hm => ?_, h1⟩
      obtain ⟨j, hj, ej⟩ := (h2 o).1 hm
      have := h.inj i j o hi (hl j (by simp [hj])) h3 ej
      subst this
      exact (List.nodup_cons.1 hnd).1 hj
    · intro q
      simp only [List.mem_cons, h2]
      constructor
      · rintro (rfl | ⟨j, hj, ej⟩)
        · exact ⟨i, Or.inl rfl, h3⟩
        · exact ⟨j, Or.inr hj, ej⟩
      · rintro ⟨j, rfl | hj, ej⟩
        · exact Or.inl (Option.some.inj (ej.symm.trans h3))
        · exact Or.inr ⟨j, hj, ej⟩

theorem nearRecs_spec {T : MTree} {xs : List SeedRec} (h : T.Holds xs) (x : Nat → ℝ) {R : ℝ} (hR : 0 ≤ R) :
    ∃ l, nearRecs T x R = some l ∧ l.Nodup ∧ (∀ i ∈ l, ∃ s, xs[i]? = some s ∧ euclidSq 3 x s.x < (1 + 2e-6) * R ^ 2) ∧
      ∀ i s, xs[i]? = some s → euclid 3 x s.x < R → i ∈ l := by
  obtain ⟨l, e, h1, h2, h3⟩ := C08_in_sphere_sound_complete T.P T.ln h.tree (fun _ => true) x R hR
  obtain ⟨os, eo, h4, h5⟩ := oldIndices_spec h (l := l) (fun i hi => by rw [← h.num]; exact (h2 i hi).1) h1
  refine ⟨os, ?_, h4, ?_, ?_⟩
  · unfold nearRecs; rw [e]; exact eo
  · intro o ho
    obtain ⟨i, hi, ei⟩ := (h5 o).1 ho
    obtain ⟨q1, -, q2⟩ := h2 i hi
    rw [h.num] at q1
    obtain ⟨o', s, h6, h7, h8⟩ := h.old i q1
    have : o' = o := Option.some.inj (h6.symm.trans ei)
    subst this
    rw [h.dim, h8] at q2
    exact ⟨s, h7, q2⟩
  · intro o s hs hd
    obtain ⟨ho, -⟩ := List.getElem?_eq_some_iff.1 hs
    obtain ⟨i, hi, ei⟩ := h.onto o ho
    obtain ⟨o', s', h6, h7, h8⟩ := h.old i hi
    have : o' = o := Option.some.inj (h6.symm.trans ei)
    subst this
    have hs' : s' = s := Option.some.inj (h7.symm.trans hs)
    subst hs'
    exact (h5 o').2 ⟨i, h3 i (by rw [h.num]; exact hi) rfl (by rw [h.dim, h8]; exact hd), ei⟩

/-! ## C62: buffers of the feature trees -/

/-- A guarded tree is built or absent. -/
def TreeFor (T : Option MTree) (xs : List SeedRec) : Prop := (xs = [] ∧ T = none) ∨ ∃ t, T = some t ∧ t.Holds xs

theorem guardedTree_spec {alloc : Nat} {xs : List SeedRec} : (xs.length ≤ alloc → ∃ T, guardedTree alloc xs = some T ∧ TreeFor T xs) ∧ (alloc < xs.length → guardedTree alloc xs = none) := by
  constructor
  · intro h
    unfold guardedTree
    by_cases h0 : xs = []
    · subst h0; exact ⟨none, by simp, Or.inl ⟨rfl, rfl⟩⟩
    · obtain ⟨T, e, hT⟩ := meshTree_spec h0 h
      rw [if_pos (List.length_pos_iff.2 h0), e]
      exact ⟨some T, rfl, Or.inr ⟨T, rfl, hT⟩⟩
  · intro h
    unfold guardedTree
    rw [if_pos (by omega)]
    unfold meshTree
    rw [if_pos h]; rfl

/-- The trees of all feature spheres. -/
structure FeatureTrees.Hold (FT : FeatureTrees) (F : Features) : Prop where
  surface : TreeFor FT.surface F.surface
  edges : TreeFor FT.edges F.edges
  corners : TreeFor FT.corners F.corners
  sizing : TreeFor FT.sizing F.sizing

/-- **C62, what holds.** With at least as many surface spheres as corner spheres and as sizing points all trees are built, and hold exactly their points. -/
theorem C62_buffers_partial (F : Features) (hc : F.corners.length ≤ F.surface.length) (hs : F.sizing.length ≤ F.surface.length) : ∃ FT, featureTrees F = some FT ∧ FT.Hold F := by
  obtain ⟨a, ea, ha⟩ := guardedTree_spec.1 (le_refl F.surface.length)
  obtain ⟨b, eb, hb⟩ := guardedTree_spec.1 (le_refl F.edges.length)
  obtain ⟨c, ec, hc⟩ := guardedTree_spec.1 hc
  obtain ⟨d, ed, hd⟩ := guardedTree_spec.1 hs
  exact ⟨⟨a, b, c, d⟩, by unfold featureTrees; rw [ea, eb, ec, ed], ha, hb, hc, hd⟩

/-- **C62, finding.** The arrays of the corner tree and of the sizing tree have one entry per surface sphere: with more corner spheres or more sizing points
the trees are built outside their arrays, for all inputs. -/
theorem C62_small_buffers_undefined (F : Features) (h : F.surface.length < F.corners.length ∨ F.surface.length < F.sizing.length) : featureTrees F = none := by
  obtain ⟨a, ea, -⟩ := guardedTree_spec.1 (le_refl F.surface.length)
  obtain ⟨b, eb, -⟩ := guardedTree_spec.1 (le_refl F.edges.length)
  unfold featureTrees
  rw [ea, eb]
  rcases h with h | h
  · rw [guardedTree_spec.2 h]
  · rw [guardedTree_spec.2 h]
    cases guardedTree F.surface.length F.corners <;> rfl

-- non-vacuity: two surface spheres and one corner sphere; and a sizing function with two points for one surface sphere
example : ∃ F : Features, F.corners.length ≤ F.surface.length ∧ F.sizing.length ≤ F.surface.length ∧ F.corners ≠ [] ∧ F.surface ≠ [] :=
  ⟨⟨[⟨fun _ => 0, 1, 0⟩, ⟨fun _ => 1, 1, 0⟩], [], [⟨fun _ => 2, 1, 0⟩], []⟩, by simp⟩

example : featureTrees ⟨[⟨fun _ => 0, 1, 0⟩], [], [], [⟨fun _ => 2, 1, 0⟩, ⟨fun _ => 3, 1, 0⟩]⟩ = none := C62_small_buffers_undefined _ (Or.inr (by simp))

/-! ## C72: which imposed seeds are accepted -/

/-- Sizes are not negative and grow at most with rate `L`. -/
structure GoodSpheres (L : ℝ) (xs : List SeedRec) : Prop where
  nonneg : ∀ q ∈ xs, 0 ≤ q.size
  lip : ∀ p ∈ xs, ∀ q ∈ xs, p.size ≤ q.size + L * euclid 3 p.x q.x

/-- `x` is outside all spheres, up to `1e-10`. -/
def OutsideOf (x : Nat → ℝ) (xs : List SeedRec) : Prop := ∀ q ∈ xs, q.size - 1e-10 ≤ euclid 3 x q.x

theorem outsideAll_spec {T : Option MTree} {xs : List SeedRec} {L : ℝ} (hL0 : 0 ≤ L) (hL1 : L < 1) (h : TreeFor T xs) (hx : GoodSpheres L xs) (x : Nat → ℝ) :
    ∃ b, outsideAll T xs L x = some b ∧ (b = true ↔ OutsideOf x xs) := by
  rcases h with ⟨rfl, rfl⟩ | ⟨t, rfl, ht⟩
  · exact ⟨true, rfl, by simp [OutsideOf]⟩
  · obtain ⟨s, o, e, hs, hmin⟩ := closestRec_spec ht x
    have hsm : s ∈ xs := List.mem_of_getElem? hs
    have h1L : 0 < 1 - L := by linarith
    have hd := euclid_nonneg 3 x s.x
    obtain ⟨l, el, -, hl1, hl2⟩ := nearRecs_spec ht x (R := (s.size + L * euclid 3 x s.x) / (1 - L)) (div_nonneg (add_nonneg (hx.nonneg s hsm) (mul_nonneg hL0 hd)) h1L.le)
    unfold outsideAll
    simp only [e, el]
    refine ⟨_, rfl, ?_⟩
    rw [List.all_eq_true]
    constructor
    · intro hall q hq
      by_contra hlt
      push Not at hlt
      obtain ⟨k, hk⟩ := List.getElem?_of_mem hq
      have hmem : k ∈ l := by
        apply hl2 k q hk
        rw [lt_div_iff₀ h1L]
        have h1 := hx.lip q hq s hsm
        have h2 := euclid_triangle 3 q.x x s.x
        rw [euclid_comm 3 q.x x] at h2
        have h3 := mul_le_mul_of_nonneg_left h2 hL0
        norm_num at hlt
        linarith
      have := hall k hmem
      rw [hk] at this
      simp only [distance_eq, Bool.not_eq_true', decide_eq_false_iff_not] at this
      exact this hlt
    · intro hout k hk
      obtain ⟨q, hq, -⟩ := hl1 k hk
      rw [hq]
      simp only [distance_eq, Bool.not_eq_true', decide_eq_false_iff_not]
      exact not_lt.2 (hout q (List.mem_of_getElem? hq))

/-- The verdict `v` on an imposed seed `x`: accepted with the region of a closest seed, which is not 0, and outside all spheres; or rejected for a reason. -/
def ImposedVerdict (seeds : List SeedRec) (F : Features) (x : Nat → ℝ) (v : Option Nat) : Prop :=
  ∃ s ∈ seeds, (∀ q ∈ seeds, euclid 3 x s.x ≤ euclid 3 x q.x) ∧
    ((v = some s.region ∧ s.region ≠ 0 ∧ OutsideOf x F.surface ∧ OutsideOf x F.edges ∧ OutsideOf x F.corners) ∨
      (v = none ∧ (s.region = 0 ∨ ¬ OutsideOf x F.surface ∨ ¬ OutsideOf x F.edges ∨ ¬ OutsideOf x F.corners)))

/-- What is assumed of the feature spheres. -/
structure Features.OK (F : Features) (L : ℝ) : Prop where
  L0 : 0 ≤ L
  L1 : L < 1
  surface : GoodSpheres L F.surface
  edges : GoodSpheres L F.edges
  corners : GoodSpheres L F.corners

theorem imposeOne_spec {T : MTree} {seeds : List SeedRec} {FT : FeatureTrees} {F : Features} {L : ℝ} (hT : T.Holds seeds) (hFT : FT.Hold F) (hF : F.OK L) (x : Nat → ℝ) :
    ∃ v, imposeOne T seeds FT F L x = some v ∧ ImposedVerdict seeds F x v := by
  obtain ⟨s, o, e, hs, hmin⟩ := closestRec_spec hT x
  obtain ⟨b1, e1, h1⟩ := outsideAll_spec hF.L0 hF.L1 hFT.surface hF.surface x
  obtain ⟨b2, e2, h2⟩ := outsideAll_spec hF.L0 hF.L1 hFT.edges hF.edges x
  obtain ⟨b3, e3, h3⟩ := outsideAll_spec hF.L0 hF.L1 hFT.corners hF.corners x
  have hsm := List.mem_of_getElem? hs
  unfold imposeOne
  simp only [e, e1, e2, e3]
  by_cases h0 : s.region = 0
  · rw [if_pos h0]; exact ⟨none, rfl, s, hsm, hmin, Or.inr ⟨rfl, Or.inl h0⟩⟩
  · rw [if_neg h0]
    cases b1
    · exact ⟨none, rfl, s, hsm, hmin, Or.inr ⟨rfl, Or.inr (Or.inl fun h => by simpa using h1.2 h)⟩⟩
    · cases b2
      · exact ⟨none, rfl, s, hsm, hmin, Or.inr ⟨rfl, Or.inr (Or.inr (Or.inl fun h => by simpa using h2.2 h))⟩⟩
      · cases b3
        · exact ⟨none, rfl, s, hsm, hmin, Or.inr ⟨rfl, Or.inr (Or.inr (Or.inr fun h => by simpa using h3.2 h))⟩⟩
        · exact ⟨some s.region, rfl, s, hsm, hmin, Or.inl ⟨rfl, h0, h1.1 rfl, h2.1 rfl, h3.1 rfl⟩⟩

theorem imposeFlags_spec {T : MTree} {seeds : List SeedRec} {FT : FeatureTrees} {F : Features} {L : ℝ} (hT : T.Holds seeds) (hFT : FT.Hold F) (hF : F.OK L) (imposed : List (Nat → ℝ)) :
    ∃ vs, imposeFlags T seeds FT F L imposed = some vs ∧ List.Forall₂ (ImposedVerdict seeds F) imposed vs := by
  induction imposed with
  | nil => exact ⟨[], rfl, .nil⟩
  | cons x xs ih =>
    obtain ⟨vs, e, h⟩ := ih
    obtain ⟨v, ev, hv⟩ := imposeOne_spec hT hFT hF x
    exact ⟨v :: vs, by unfold imposeFlags; rw [ev, e], .cons hv h⟩

/-! ## C48: the counter -/

/-- Increments that are not completed. -/
def Counter.open (m : Nat) (s : Counter) : Nat := ∑ t ∈ Finset.range m, (s.todo t + if (s.reg t).isSome then 1 else 0)

/-- All threads are done. -/
def Counter.Done (s : Counter) : Prop := ∀ t, s.todo t = 0 ∧ s.reg t = none

theorem open_eq {m t : Nat} (ht : t < m) {s s' : Counter} (h : ∀ k, k ≠ t → s'.todo k = s.todo k ∧ s'.reg k = s.reg k) :
    s'.open m + (s.todo t + if (s.reg t).isSome then 1 else 0) = s.open m + (s'.todo t + if (s'.reg t).isSome then 1 else 0) := by
  unfold Counter.open
  have e1 := Finset.add_sum_erase (Finset.range m) (fun t => s'.todo t + if (s'.reg t).isSome then 1 else 0) (Finset.mem_range.2 ht)
  have e2 := Finset.add_sum_erase (Finset.range m) (fun t => s.todo t + if (s.reg t).isSome then 1 else 0) (Finset.mem_range.2 ht)
  have : ∑ k ∈ (Finset.range m).erase t, (s'.todo k + if (s'.reg k).isSome then 1 else 0) = ∑ k ∈ (Finset.range m).erase t, (s.todo k + if (s.reg k).isSome then 1 else 0) := by
    refine Finset.sum_congr rfl fun k hk => ?_
    obtain ⟨h1, h2⟩ := h k (Finset.mem_erase.1 hk).1
    rw [h1, h2]
  rw [this] at e1
  omega

/-- Invariant: at most `N` increments in all. -/
structure CounterInv (m N : Nat) (s : Counter) : Prop where
  out : ∀ t, m ≤ t → s.todo t = 0 ∧ s.reg t = none
  le : s.val + s.open m ≤ N
  reg : ∀ t v, s.reg t = some v → v + s.open m ≤ N
  pos : s.val = 0 → s.open m = N

theorem counterStep_inv {m N t : Nat} {s : Counter} (h : CounterInv m N s) : CounterInv m N (counterStep t s) := by
  unfold counterStep
  by_cases ht : t < m
  · cases hr : s.reg t with
    | some v =>
      simp only
      have ho := open_eq (s := s) (s' := { s with val := v + 1, reg := upd s.reg t none }) ht (fun k hk => ⟨rfl, by simp [upd, hk]⟩)
      simp only [hr, upd, if_true, Option.isSome_some, Option.isSome_none, Bool.false_eq_true, if_false] at ho
      have hv := h.reg t v hr
      refine ⟨fun k hk => ⟨(h.out k hk).1, ?_⟩, ?_, ?_, fun h0 => by simp at h0⟩
      · simp only [upd]; rw [if_neg (by omega)]; exact (h.out k hk).2
      · show v + 1 + _ ≤ N; omega
      · intro k w hk
        have hk' : k ≠ t := fun hkt => by simp [upd, hkt] at hk
        simp only [upd, if_neg hk'] at hk
        have := h.reg k w hk
        omega
    | none =>
      simp only
      split
      · rename_i h0
        have ho := open_eq (s := s) (s' := { s with reg := upd s.reg t (some s.val), todo := upd s.todo t (s.todo t - 1) }) ht
          (fun k hk => ⟨by simp [upd, hk], by simp [upd, hk]⟩)
        simp only [hr, upd, if_true, Option.isSome_some, Option.isSome_none, Bool.false_eq_true, if_false] at ho
        have ho' : Counter.open m { s with reg := upd s.reg t (some s.val), todo := upd s.todo t (s.todo t - 1) } = s.open m := by
          omega
        refine ⟨fun k hk => ?_, by rw [ho']; exact h.le, ?_, fun hz => by rw [ho']; exact h.pos hz⟩
        · simp only [upd]; rw [if_neg (by omega), if_neg (by omega)]; exact h.out k hk
        · intro k w hk
          rw [ho']
          by_cases hkt : k = t
          · subst hkt
            simp only [upd, if_true, Option.some.injEq] at hk
            subst hk; exact h.le
          · simp only [upd, if_neg hkt] at hk
            exact h.reg k w hk
      · exact h
  · obtain ⟨h1, h2⟩ := h.out t (by omega)
    rw [h2]; simp only; rw [if_neg (by omega)]; exact h

theorem runCounter_inv {m N : Nat} (sched : List Nat) {s : Counter} (h : CounterInv m N s) : CounterInv m N (runCounter sched s) := by
  induction sched generalizing s with
  | nil => exact h
  | cons t ts ih => exact ih (counterStep_inv h)

theorem open_done {m : Nat} {s : Counter} (h : s.Done) : s.open m = 0 := by
  unfold Counter.open
  refine Finset.sum_eq_zero fun t _ => ?_
  rw [(h t).1, (h t).2]; rfl

/-- All threads together make `N` increments. -/
def Splits (m N : Nat) (split : Nat → Nat) : Prop := (∀ t, m ≤ t → split t = 0) ∧ ∑ t ∈ Finset.range m, split t = N

theorem start_inv {m N : Nat} {split : Nat → Nat} (h : Splits m N split) : CounterInv m N ⟨0, fun _ => none, split⟩ := by
  have : Counter.open m ⟨0, fun _ => none, split⟩ = N := by unfold Counter.open; simpa using h.2
  exact ⟨fun t ht => ⟨h.1 t ht, rfl⟩, by simp [this], by simp, fun _ => this⟩

theorem count_bounds {m N : Nat} {split : Nat → Nat} (h : Splits m N split) {sched : List Nat} (hd : (runCounter sched ⟨0, fun _ => none, split⟩).Done) :
    (runCounter sched ⟨0, fun _ => none, split⟩).val ≤ N ∧ (0 < N → 0 < (runCounter sched ⟨0, fun _ => none, split⟩).val) := by
  have hi := runCounter_inv sched (start_inv h)
  have h0 := open_done (m := m) hd
  have h1 := hi.le
  have h2 := hi.pos
  exact ⟨by omega, fun h3 => by by_contra hc; have := h2 (by omega); omega⟩

/-- One thread: nothing is lost. -/
theorem single_exact {t N : Nat} (sched : List Nat) (hs : ∀ k ∈ sched, k = t) {s : Counter} (h : s.val + s.todo t + (if (s.reg t).isSome then 1 else 0) = N)
    (hr : ∀ v, s.reg t = some v → v = s.val) :
    (runCounter sched s).val + (runCounter sched s).todo t + (if ((runCounter sched s).reg t).isSome then 1 else 0) = N := by
  induction sched generalizing s with
  | nil => exact h
  | cons k ks ih =>
    have hk := hs k (by simp)
    subst hk
    refine ih (fun k hk => hs k (by simp [hk])) ?_ ?_
    · unfold counterStep
      cases hreg : s.reg k with
      | some v =>
        have := hr v hreg
        rw [hreg] at h
        simp only [Option.isSome_some, if_true] at h
        simp [upd]; omega
      | none =>
        rw [hreg] at h
        simp only [Option.isSome_none, Bool.false_eq_true, if_false] at h
        simp only
        split
        · simp [upd]; omega
        · simp [hreg]; omega
    · unfold counterStep
      cases hreg : s.reg k with
      | some v => intro v hv; simp [upd] at hv
      | none =>
        simp only
        split
        · intro v hv; simp [upd] at hv; exact hv.symm
        · intro v hv; rw [hreg] at hv; simp at hv

/-! ## Appending -/

theorem copyInto_spec (rs : List SeedRec) (i : Nat) (b : SeedBuf) (h : i + rs.length ≤ b.cap) :
    ∃ b', copyInto rs i b = some b' ∧ b'.cap = b.cap ∧ (∀ k, k < i → b'.cell k = b.cell k) ∧ ∀ k r, rs[k]? = some r → b'.cell (i + k) = some r := by
  induction rs generalizing i b with
  | nil => exact ⟨b, rfl, rfl, fun _ _ => rfl, by simp⟩
  | cons r rs ih =>
    simp only [List.length_cons] at h
    obtain ⟨b', e, h1, h2, h3⟩ := ih (i + 1) ⟨b.cap, upd b.cell i (some r)⟩ (by simp only; omega)
    refine ⟨b', ?_, h1, fun k hk => ?_, fun k q hq => ?_⟩
    · unfold copyInto SeedBuf.put; rw [if_pos (by omega)]; exact e
    · rw [h2 k (by omega)]; simp [upd, show k ≠ i by omega]
    · cases k with
      | zero =>
        simp only [List.getElem?_cons_zero, Option.some.injEq] at hq
        subst hq
        rw [Nat.add_zero, h2 i (by omega)]; simp [upd]
      | succ k =>
        simp only [List.getElem?_cons_succ] at hq
        have := h3 k q hq
        rw [show i + (k + 1) = i + 1 + k by omega]; exact this

theorem take_spec (b : SeedBuf) (l : List SeedRec) (hc : l.length ≤ b.cap) (h : ∀ k r, l[k]? = some r → b.cell k = some r) : b.take l.length = some l := by
  induction l using List.reverseRecOn with
  | nil => rfl
  | append_singleton l r ih =>
    simp only [List.length_append, List.length_cons, List.length_nil, Nat.zero_add] at hc ⊢
    have h1 := ih (by omega) fun k q hq => h k q (by rw [List.getElem?_append_left (List.getElem?_eq_some_iff.1 hq).1]; exact hq)
    have h2 := h l.length r (by simp)
    unfold SeedBuf.take
    rw [h1, if_pos (by omega), h2]

/-- The records of the accepted seeds. -/
def acceptedRecs (l : List ((Nat → ℝ) × Option Nat)) : List SeedRec := l.filterMap fun p => p.2.map fun q => ⟨p.1, p.1 3, q⟩

theorem appendImposed_spec (n : Nat) (l : List ((Nat → ℝ) × Option Nat)) (k : Nat) (b : SeedBuf) :
    (n + k + (acceptedRecs l).length ≤ b.cap → ∃ b', appendImposed n l k b = some (b', k + (acceptedRecs l).length) ∧ b'.cap = b.cap ∧ (∀ i, i < n + k → b'.cell i = b.cell i) ∧
        ∀ i r, (acceptedRecs l)[i]? = some r → b'.cell (n + k + i) = some r) ∧
      (b.cap < n + k + (acceptedRecs l).length → n + k ≤ b.cap → appendImposed n l k b = none) := by
  induction l generalizing k b with
  | nil => exact ⟨fun h => ⟨b, rfl, rfl, fun _ _ => rfl, by simp [acceptedRecs]⟩, fun h1 h2 => by simp [acceptedRecs] at h1; omega⟩
  | cons p l ih =>
    obtain ⟨x, v⟩ := p
    cases v with
    | none =>
      have : acceptedRecs ((x, none) :: l) = acceptedRecs l := by simp [acceptedRecs]
      rw [this]; unfold appendImposed; exact ih k b
    | some q =>
      have hacc : acceptedRecs ((x, some q) :: l) = ⟨x, x 3, q⟩ :: acceptedRecs l := by simp [acceptedRecs]
      rw [hacc]
      simp only [List.length_cons]
      constructor
      · intro h
        obtain ⟨b', e, h1, h2, h3⟩ := (ih (k + 1) ⟨b.cap, upd b.cell (n + k) (some ⟨x, x 3, q⟩)⟩).1 (by simp only; omega)
        refine ⟨b', ?_, h1, fun i hi => ?_, fun i r hr => ?_⟩
        · unfold appendImposed SeedBuf.put
          rw [if_pos (by omega)]
          simp only
          rw [e, show k + 1 + (acceptedRecs l).length = k + ((acceptedRecs l).length + 1) by omega]
        · rw [h2 i (by omega)]; simp [upd, show i ≠ n + k by omega]
        · cases i with
          | zero =>
            simp only [List.getElem?_cons_zero, Option.some.injEq] at hr
            subst hr
            rw [Nat.add_zero, h2 _ (by omega)]; simp [upd]
          | succ i =>
            simp only [List.getElem?_cons_succ] at hr
            have := h3 i r hr
            rw [show n + k + (i + 1) = n + (k + 1) + i by omega]; exact this
      · intro h1 h2
        unfold appendImposed SeedBuf.put
        by_cases hlt : n + k < b.cap
        · rw [if_pos hlt]
          simp only
          exact (ih (k + 1) ⟨b.cap, upd b.cell (n + k) (some ⟨x, x 3, q⟩)⟩).2 (by simp only; omega) (by simp only; omega)
        · rw [if_neg hlt]

/-- With the right count everything is appended; with a smaller one the arrays overflow. -/
theorem addImposed_spec (seeds : List SeedRec) (l : List ((Nat → ℝ) × Option Nat)) (count : Nat) (h1 : count ≤ (acceptedRecs l).length) (h2 : 0 < (acceptedRecs l).length → 0 < count) :
    addImposed seeds l count = if count = (acceptedRecs l).length then some (seeds ++ acceptedRecs l) else none := by
  unfold addImposed
  by_cases h0 : 0 < count
  · rw [if_pos h0]
    obtain ⟨b, e, hb1, hb2, hb3⟩ := copyInto_spec seeds 0 (SeedBuf.new (seeds.length + count)) (by simp [SeedBuf.new])
    have hcap : b.cap = seeds.length + count := hb1
    rw [e]
    simp only
    split_ifs with hc
    · obtain ⟨b', e', h3, h4, h5⟩ := (appendImposed_spec seeds.length l 0 b).1 (by omega)
      rw [e']
      simp only [Nat.zero_add]
      rw [show seeds.length + (acceptedRecs l).length = (seeds ++ acceptedRecs l).length by simp]
      refine take_spec b' _ (by simp; omega) fun k r hr => ?_
      by_cases hk : k < seeds.length
      · rw [List.getElem?_append_left hk] at hr
        rw [h4 k (by omega)]
        have := hb3 k r hr
        simpa using this
      · rw [List.getElem?_append_right (by omega)] at hr
        have := h5 _ r hr
        rw [show seeds.length + 0 + (k - seeds.length) = k by omega] at this
        exact this
    · rw [(appendImposed_spec seeds.length l 0 b).2 (by omega) (by omega)]
  · have hz : (acceptedRecs l).length = 0 := by by_contra hn; exact h0 (h2 (by omega))
    rw [if_neg h0, if_pos (by omega), List.length_eq_zero_iff.1 hz, List.append_nil]

theorem acceptedRecs_length {xs : List (Nat → ℝ)} {vs : List (Option Nat)} (h : xs.length = vs.length) : (acceptedRecs (xs.zip vs)).length = acceptedCount vs := by
  induction xs generalizing vs with
  | nil => cases vs with
    | nil => rfl
    | cons v vs => simp at h
  | cons x xs ih =>
    cases vs with
    | nil => simp at h
    | cons v vs =>
      have := ih (vs := vs) (by simpa using h)
      unfold acceptedRecs acceptedCount at *
      cases v <;> simp [List.zip_cons_cons] <;> simpa using this

/-- **C48, what holds.** Let `vs` be the verdicts on the imposed seeds (`ImposedVerdict`: they do not depend on the schedule), and let the accepted ones fall to `m` threads in any way.
For every schedule that lets all threads finish the final counter is at most the number of accepted seeds, and positive if there are any.  If it equals that number, all seeds are
written inside the new arrays and the result is the old seeds followed by the accepted ones; otherwise the fill loop writes outside the arrays.  When one thread does all increments the
counter is exact. -/
theorem C48_counter_partial (seeds : List SeedRec) (F : Features) (L : ℝ) (imposed : List (Nat → ℝ)) (hne : seeds ≠ []) (hF : F.OK L)
    (hc : F.corners.length ≤ F.surface.length) (hs : F.sizing.length ≤ F.surface.length) :
    ∃ vs : List (Option Nat), List.Forall₂ (ImposedVerdict seeds F) imposed vs ∧
      (∀ m split sched, Splits m (acceptedCount vs) split → (runCounter sched ⟨0, fun _ => none, split⟩).Done →
        (runCounter sched ⟨0, fun _ => none, split⟩).val ≤ acceptedCount vs ∧ (0 < acceptedCount vs → 0 < (runCounter sched ⟨0, fun _ => none, split⟩).val) ∧
          imposeSeeds seeds F L imposed split sched =
            if (runCounter sched ⟨0, fun _ => none, split⟩).val = acceptedCount vs then some (seeds ++ acceptedRecs (imposed.zip vs)) else none) ∧
      ∀ t split sched, split t = acceptedCount vs → (∀ k ∈ sched, k = t) → (runCounter sched ⟨0, fun _ => none, split⟩).Done →
        (runCounter sched ⟨0, fun _ => none, split⟩).val = acceptedCount vs := by
  obtain ⟨T, eT, hT⟩ := meshTree_spec hne (le_refl seeds.length)
  obtain ⟨FT, eF, hFT⟩ := C62_buffers_partial F hc hs
  obtain ⟨vs, ev, hv⟩ := imposeFlags_spec hT hFT hF imposed
  refine ⟨vs, hv, fun m split sched hsp hd => ?_, fun t split sched hsp hk hd => ?_⟩
  · obtain ⟨h1, h2⟩ := count_bounds hsp hd
    refine ⟨h1, h2, ?_⟩
    have hl := acceptedRecs_length hv.length_eq
    unfold imposeSeeds
    rw [eT, eF]
    simp only [ev]
    rw [addImposed_spec _ _ _ (by rw [hl]; exact h1) (by rw [hl]; exact h2), hl]
  · have := single_exact (N := acceptedCount vs) sched hk (s := ⟨0, fun _ => none, split⟩) (by simpa using hsp) (by simp)
    rw [(hd t).1, (hd t).2] at this
    simpa using this

/-- **C72.** Whenever `impose_interior_seeds` stays inside its arrays, whatever the schedule, the old seeds come first and are unchanged, and every new seed is an imposed point with its
own size, has the region of a closest old seed, which is not the outside, and lies outside all surface, edge and corner spheres (up to `1e-10`); an imposed point that is not taken has
an outside closest seed or lies in a sphere. -/
theorem C72_imposed_seeds (seeds : List SeedRec) (F : Features) (L : ℝ) (imposed : List (Nat → ℝ)) (hne : seeds ≠ []) (hF : F.OK L) (m : Nat) (split : Nat → Nat) (sched : List Nat)
    (hd : (runCounter sched ⟨0, fun _ => none, split⟩).Done) (hsp : ∀ vs, List.Forall₂ (ImposedVerdict seeds F) imposed vs → Splits m (acceptedCount vs) split) {out : List SeedRec}
    (h : imposeSeeds seeds F L imposed split sched = some out) :
    ∃ new, out = seeds ++ new ∧
      (∀ r ∈ new, r.x ∈ imposed ∧ r.size = r.x 3 ∧ r.region ≠ 0 ∧ OutsideOf r.x F.surface ∧ OutsideOf r.x F.edges ∧ OutsideOf r.x F.corners ∧
        ∃ s ∈ seeds, s.region = r.region ∧ ∀ q ∈ seeds, euclid 3 r.x s.x ≤ euclid 3 r.x q.x) ∧
      ∀ x ∈ imposed, (∃ r ∈ new, r.x = x) ∨
        ∃ s ∈ seeds, (∀ q ∈ seeds, euclid 3 x s.x ≤ euclid 3 x q.x) ∧ (s.region = 0 ∨ ¬ OutsideOf x F.surface ∨ ¬ OutsideOf x F.edges ∨ ¬ OutsideOf x F.corners) := by
  have hlen : F.corners.length ≤ F.surface.length ∧ F.sizing.length ≤ F.surface.length := by
    by_contra hc
    have : featureTrees F = none := C62_small_buffers_undefined F (by omega)
    unfold imposeSeeds at h
    rw [this] at h
    cases meshTree seeds.length seeds <;> simp at h
  obtain ⟨vs, hv, h1, -⟩ := C48_counter_partial seeds F L imposed hne hF hlen.1 hlen.2
  obtain ⟨-, -, h2⟩ := h1 m split sched (hsp vs hv) hd
  rw [h] at h2
  split at h2
  · refine ⟨_, Option.some.inj h2, ?_, ?_⟩
    · intro r hr
      unfold acceptedRecs at hr
      obtain ⟨⟨x, v⟩, hp, hq⟩ := List.mem_filterMap.1 hr
      simp only at hq
      obtain ⟨s, hs, hmin, ⟨rfl, h3, h4, h5, h6⟩ | ⟨rfl, -⟩⟩ := (List.forall₂_iff_zip.1 hv).2 hp
      · simp only [Option.map_some, Option.some.injEq] at hq
        subst hq
        exact ⟨(List.of_mem_zip hp).1, rfl, h3, h4, h5, h6, s, hs, rfl, hmin⟩
      · simp at hq
    · intro x hx
      obtain ⟨i, hi, ex⟩ := List.getElem_of_mem hx
      have hi' : i < vs.length := hv.length_eq ▸ hi
      have hp : (x, vs[i]) ∈ imposed.zip vs := by
        rw [← ex]
        have : (imposed.zip vs)[i]'(by simp; omega) = (imposed[i], vs[i]) := List.getElem_zip ..
        rw [← this]; exact List.getElem_mem _
      obtain ⟨s, hs, hmin, ⟨e3, h3, h4⟩ | ⟨-, h3⟩⟩ := (List.forall₂_iff_zip.1 hv).2 hp
      · refine Or.inl ⟨⟨x, x 3, s.region⟩, ?_, rfl⟩
        unfold acceptedRecs
        exact List.mem_filterMap.2 ⟨_, hp, by simp only [e3, Option.map_some]⟩
      · exact Or.inr ⟨s, hs, hmin, h3⟩
  · simp at h2

/-! ## The witness: a lost update -/

/-- One seed in region 1. -/
def wSeed : SeedRec := ⟨fun _ => 0, 1, 1⟩
/-- No feature spheres. -/
def wFeat : Features := ⟨[], [], [], []⟩
/-- Two imposed points with radius 1. -/
def wImposed : List (Nat → ℝ) := [fun d => if d = 3 then 1 else 5, fun d => if d = 3 then 1 else 7]

theorem wFeat_ok : wFeat.OK (1 / 2) := ⟨by norm_num, by norm_num, ⟨by simp [wFeat], by simp [wFeat]⟩, ⟨by simp [wFeat], by simp [wFeat]⟩, ⟨by simp [wFeat], by simp [wFeat]⟩⟩

theorem wVerdict {vs : List (Option Nat)} (h : List.Forall₂ (ImposedVerdict [wSeed] wFeat) wImposed vs) : vs = [some 1, some 1] := by
  have key : ∀ x v, ImposedVerdict [wSeed] wFeat x v → v = some 1 := by
    rintro x v ⟨s, hs, -, ⟨rfl, -⟩ | ⟨-, h | h | h | h⟩⟩
    · rw [List.mem_singleton.1 hs]; rfl
    · rw [List.mem_singleton.1 hs] at h; simp [wSeed] at h
    all_goals exact absurd (fun q hq => by simp [wFeat] at hq) h
  unfold wImposed at h
  cases h with
  | cons a h => cases h with
    | cons b h => cases h; rw [key _ _ a, key _ _ b]

theorem wSplits : Splits 2 2 (fun t => if t < 2 then 1 else 0) := ⟨fun t ht => if_neg (by omega), by decide⟩

/-- The increments of two threads interleave: both load 0. -/
theorem wRace : (runCounter [0, 1, 0, 1] ⟨0, fun _ => none, fun t => if t < 2 then 1 else 0⟩).Done ∧ (runCounter [0, 1, 0, 1] ⟨0, fun _ => none, fun t => if t < 2 then 1 else 0⟩).val = 1 := by
  constructor
  · intro t
    rcases t with _ | _ | t
    · exact ⟨rfl, rfl⟩
    · exact ⟨rfl, rfl⟩
    · constructor <;> simp [runCounter, counterStep, upd]
  · rfl

/-- One thread after the other. -/
theorem wSerial : (runCounter [0, 0, 1, 1] ⟨0, fun _ => none, fun t => if t < 2 then 1 else 0⟩).Done ∧ (runCounter [0, 0, 1, 1] ⟨0, fun _ => none, fun t => if t < 2 then 1 else 0⟩).val = 2 := by
  constructor
  · intro t
    rcases t with _ | _ | t
    · exact ⟨rfl, rfl⟩
    · exact ⟨rfl, rfl⟩
    · constructor <;> simp [runCounter, counterStep, upd]
  · rfl

/-- **C48 fails.** Two threads accept one imposed seed each; `num_valid_seeds++` is not atomic, both load 0 and store 1.  The arrays get room for one new seed and the fill loop writes a second
one outside.  With the other schedule both seeds are added. -/
theorem C48_lost_update_false : imposeSeeds [wSeed] wFeat (1 / 2) wImposed (fun t => if t < 2 then 1 else 0) [0, 1, 0, 1] = none ∧
    ∃ out, imposeSeeds [wSeed] wFeat (1 / 2) wImposed (fun t => if t < 2 then 1 else 0) [0, 0, 1, 1] = some out ∧ out.length = 3 := by
  obtain ⟨vs, hv, h1, -⟩ := C48_counter_partial [wSeed] wFeat (1 / 2) wImposed (by simp) wFeat_ok (by simp [wFeat]) (by simp [wFeat])
  have hvs := wVerdict hv
  subst hvs
  constructor
  · rw [(h1 2 _ _ wSplits wRace.1).2.2, wRace.2, if_neg (by simp [acceptedCount])]
  · rw [(h1 2 _ _ wSplits wSerial.1).2.2, wSerial.2, if_pos (by simp [acceptedCount])]
    exact ⟨_, rfl, by simp [wImposed, acceptedRecs]⟩

-- non-vacuity of C72: the hypotheses hold for the serial schedule, and two seeds are added
example : ∃ out, imposeSeeds [wSeed] wFeat (1 / 2) wImposed (fun t => if t < 2 then 1 else 0) [0, 0, 1, 1] = some out ∧
    (∀ vs, List.Forall₂ (ImposedVerdict [wSeed] wFeat) wImposed vs → Splits 2 (acceptedCount vs) (fun t => if t < 2 then 1 else 0)) ∧ ∃ r ∈ out.drop 1, r.region ≠ 0 := by
  obtain ⟨out, h, h3⟩ := C48_lost_update_false.2
  have hsp : ∀ vs, List.Forall₂ (ImposedVerdict [wSeed] wFeat) wImposed vs → Splits 2 (acceptedCount vs) (fun t => if t < 2 then 1 else 0) :=
    fun vs hv => by rw [wVerdict hv]; exact wSplits
  obtain ⟨new, rfl, h4, -⟩ := C72_imposed_seeds [wSeed] wFeat (1 / 2) wImposed (by simp) wFeat_ok 2 _ _ wSerial.1 hsp h
  cases new with
  | nil => simp at h3
  | cons r new => exact ⟨_, h, hsp, r, by simp, (h4 r (by simp)).2.2.1⟩

end VoroCrust
