import Verif.Props.Memory
import Verif.Lemmas.KdTree

/-! # Properties C04, C05: kd-tree insertion and balanced rebuild -/

set_option linter.unusedSimpArgs false

namespace VoroCrust

/-! ## Specification vocabulary (independent of the proofs' inductive trees) -/

/-- Follow a path of child links (`true` = right child) from node `i`; `none` when a child is missing. -/
def follow (ln : Links) : List Bool → Nat → Option Nat
  | [], i => some i
  | true :: bs, i => if ln.right i = i then none else follow ln bs (ln.right i)
  | false :: bs, i => if ln.left i = i then none else follow ln bs (ln.left i)

/-- The tree rooted at `root` holds exactly the indices `0 .. n-1`, each at exactly one place. -/
def HoldsEachOnce (ln : Links) (root n : Nat) : Prop :=
  (∀ k, k < n → ∃! path, follow ln path root = some k) ∧
    ∀ path k, follow ln path root = some k → k < n

/-- Search order: a point below the right child of a node at depth `m` is larger than the node in
coordinate `m mod dim`, a point below the left child is not. -/
def SearchOrder {κ : Type} (P : PointStore κ) (ln : Links) (root : Nat) : Prop :=
  ∀ (pre rest : List Bool) (dir : Bool) (a b : Nat), follow ln pre root = some a →
    follow ln (pre ++ dir :: rest) root = some b →
    P.lt (P.pts a (pre.length % P.dim)) (P.pts b (pre.length % P.dim)) = dir

/-! ## From the inductive invariant to the specification -/

theorem follow_mem {ln : Links} {t : KT} {i : Nat} (h : Rep ln.left ln.right i t) {path : List Bool} {k : Nat}
    (hf : follow ln path i = some k) : k ∈ t.idx := by
  induction t generalizing i path with
  | nil => simp [Rep] at h
  | node j l r ihl ihr =>
    simp only [Rep] at h
    obtain ⟨rfl, hl, hr⟩ := h
    cases path with
    | nil => simp only [follow, Option.some.injEq] at hf; simp [KT.idx, hf]
    | cons b bs =>
      cases b
      · simp only [follow] at hf
        rcases hl with ⟨_, h2⟩ | ⟨h1, h2⟩
        · simp [h2] at hf
        · rw [if_neg h1] at hf; have := ihl h2 hf; simp [KT.idx, this]
      · simp only [follow] at hf
        rcases hr with ⟨_, h2⟩ | ⟨h1, h2⟩
        · simp [h2] at hf
        · rw [if_neg h1] at hf; have := ihr h2 hf; simp [KT.idx, this]

theorem follow_exists {ln : Links} {t : KT} {i : Nat} (h : Rep ln.left ln.right i t) {k : Nat} (hk : k ∈ t.idx) :
    ∃ path, follow ln path i = some k := by
  induction t generalizing i with
  | nil => simp [Rep] at h
  | node j l r ihl ihr =>
    simp only [Rep] at h
    obtain ⟨rfl, hl, hr⟩ := h
    simp only [KT.idx, List.mem_cons, List.mem_append] at hk
    rcases hk with rfl | hk | hk
    · exact ⟨[], rfl⟩
    · rcases hl with ⟨h1, _⟩ | ⟨h1, h2⟩
      · simp [h1, KT.idx] at hk
      · obtain ⟨p, hp⟩ := ihl h2 hk
        exact ⟨false :: p, by simp [follow, h1, hp]⟩
    · rcases hr with ⟨h1, _⟩ | ⟨h1, h2⟩
      · simp [h1, KT.idx] at hk
      · obtain ⟨p, hp⟩ := ihr h2 hk
        exact ⟨true :: p, by simp [follow, h1, hp]⟩

theorem follow_left {ln : Links} {i : Nat} {bs : List Bool} {k : Nat} (h : follow ln (false :: bs) i = some k) :
    ln.left i ≠ i ∧ follow ln bs (ln.left i) = some k := by
  simp only [follow] at h
  split at h
  · cases h
  · exact ⟨by assumption, h⟩

theorem follow_right {ln : Links} {i : Nat} {bs : List Bool} {k : Nat} (h : follow ln (true :: bs) i = some k) :
    ln.right i ≠ i ∧ follow ln bs (ln.right i) = some k := by
  simp only [follow] at h
  split at h
  · cases h
  · exact ⟨by assumption, h⟩

theorem follow_unique {ln : Links} {t : KT} {i : Nat} (h : Rep ln.left ln.right i t) (hnd : t.idx.Nodup) {k : Nat}
    {p q : List Bool} (hp : follow ln p i = some k) (hq : follow ln q i = some k) : p = q := by
  induction t generalizing i p q with
  | nil => simp [Rep] at h
  | node j l r ihl ihr =>
    simp only [Rep] at h
    obtain ⟨rfl, hl, hr⟩ := h
    simp only [KT.idx, List.nodup_cons, List.mem_append, not_or] at hnd
    obtain ⟨⟨hil, hir⟩, hnd⟩ := hnd
    obtain ⟨hndl, hndr, hdis⟩ := List.nodup_append.1 hnd
    have memL : ∀ {bs : List Bool}, follow ln (false :: bs) i = some k → Rep ln.left ln.right (ln.left i) l ∧ k ∈ l.idx := by
      intro bs hb
      obtain ⟨h1, h2⟩ := follow_left hb
      rcases hl with ⟨_, h3⟩ | ⟨_, h3⟩
      · exact absurd h3 h1
      · exact ⟨h3, follow_mem h3 h2⟩
    have memR : ∀ {bs : List Bool}, follow ln (true :: bs) i = some k → Rep ln.left ln.right (ln.right i) r ∧ k ∈ r.idx := by
      intro bs hb
      obtain ⟨h1, h2⟩ := follow_right hb
      rcases hr with ⟨_, h3⟩ | ⟨_, h3⟩
      · exact absurd h3 h1
      · exact ⟨h3, follow_mem h3 h2⟩
    cases p with
    | nil =>
      have hik : i = k := by simpa [follow] using hp
      subst hik
      cases q with
      | nil => rfl
      | cons b bs => cases b
                     · exact absurd (memL hq).2 hil
                     · exact absurd (memR hq).2 hir
    | cons a as =>
      cases q with
      | nil =>
        have hik : i = k := by simpa [follow] using hq
        subst hik
        cases a
        · exact absurd (memL hp).2 hil
        · exact absurd (memR hp).2 hir
      | cons b bs =>
        cases a <;> cases b
        · rw [ihl (memL hp).1 hndl (follow_left hp).2 (follow_left hq).2]
        · exact absurd rfl (hdis k (memL hp).2 k (memR hq).2)
        · exact absurd rfl (hdis k (memL hq).2 k (memR hp).2)
        · rw [ihr (memR hp).1 hndr (follow_right hp).2 (follow_right hq).2]

theorem nextDim_mod {dim d : Nat} (h : d < dim) (m : Nat) : (nextDim dim d + m) % dim = (d + (m + 1)) % dim := by
  unfold nextDim
  split
  · rename_i he
    rw [show d + (m + 1) = m + dim by omega, Nat.add_mod_right, Nat.zero_add]
  · congr 1; omega

theorem follow_ordered {κ : Type} {P : PointStore κ} {ln : Links} {t : KT} {i d : Nat} (hd : d < P.dim)
    (h : Rep ln.left ln.right i t) (ho : Ordered P d t) {pre rest : List Bool} {dir : Bool} {a b : Nat}
    (ha : follow ln pre i = some a) (hb : follow ln (pre ++ dir :: rest) i = some b) :
    P.lt (P.pts a ((d + pre.length) % P.dim)) (P.pts b ((d + pre.length) % P.dim)) = dir := by
  induction t generalizing i d pre with
  | nil => simp [Rep] at h
  | node j l r ihl ihr =>
    simp only [Rep] at h
    obtain ⟨rfl, hl, hr⟩ := h
    simp only [Ordered] at ho
    obtain ⟨ho1, ho2, ho3, ho4⟩ := ho
    cases pre with
    | nil =>
      have hia : i = a := by simpa [follow] using ha
      subst hia
      simp only [List.length_nil, Nat.add_zero, Nat.mod_eq_of_lt hd]
      cases dir
      · obtain ⟨h1, h2⟩ := follow_left hb
        rcases hl with ⟨_, h3⟩ | ⟨_, h3⟩
        · exact absurd h3 h1
        · exact ho1 b (follow_mem h3 h2)
      · obtain ⟨h1, h2⟩ := follow_right hb
        rcases hr with ⟨_, h3⟩ | ⟨_, h3⟩
        · exact absurd h3 h1
        · exact ho2 b (follow_mem h3 h2)
    | cons c cs =>
      cases c
      · obtain ⟨h1, h2⟩ := follow_left ha
        obtain ⟨_, h2'⟩ := follow_left hb
        rcases hl with ⟨_, h3⟩ | ⟨_, h3⟩
        · exact absurd h3 h1
        · have := ihl (nextDim_lt hd) h3 ho3 h2 h2'
          rwa [nextDim_mod hd] at this
      · obtain ⟨h1, h2⟩ := follow_right ha
        obtain ⟨_, h2'⟩ := follow_right hb
        rcases hr with ⟨_, h3⟩ | ⟨_, h3⟩
        · exact absurd h3 h1
        · have := ihr (nextDim_lt hd) h3 ho4 h2 h2'
          rwa [nextDim_mod hd] at this

theorem TreeOK.spec {κ : Type} {P : PointStore κ} {ln : Links} {t : KT} (hD : 0 < P.dim) (h : TreeOK P ln t) (hne : t ≠ .nil)
    (hp : t.idx.Perm (List.range P.num)) :
    ∃ root, ln.origin = some root ∧ HoldsEachOnce ln root P.num ∧ SearchOrder P ln root := by
  rcases h.root with ⟨_, h1⟩ | ⟨o, ho, hrep⟩
  · exact absurd h1 hne
  · refine ⟨o, ho, ⟨?_, ?_⟩, ?_⟩
    · intro k hk
      obtain ⟨p, hpth⟩ := follow_exists hrep (hp.mem_iff.2 (List.mem_range.2 hk))
      exact ⟨p, hpth, fun q hq => follow_unique hrep h.nodup hq hpth⟩
    · intro path k hf
      exact List.mem_range.1 (hp.mem_iff.1 (follow_mem hrep hf))
    · intro pre rest dir a b ha hb
      have := follow_ordered hD hrep h.ordered ha hb
      rwa [Nat.zero_add] at this

/-! ## C04 -/

/-- **C04.** After any non-empty history of insertions into a new tree (with an arbitrary automatic
re-balancing policy and an arbitrary asymmetric comparison of coordinates), no access was out of range,
all points are stored unchanged and in order, each index is at exactly one place below the root, and the
search order holds at every node. -/
theorem C04_insert_history {κ : Type} (lt : κ → κ → Bool) (hasym : ∀ a b, lt a b = true → lt b a = false)
    (dim : Nat) (hD : 0 < dim) (rebalance : Nat → Nat → Bool) (xs : List (Nat → κ)) (hx : xs ≠ [])
    (junkPts : Nat → Nat → κ) (junkL junkR : Nat → Nat) :
    ∃ st, addTreePoints lt dim rebalance xs (SmartTree.empty junkPts junkL junkR) = some st ∧
      st.num = xs.length ∧ st.num < st.cap ∧ (∀ k (hk : k < xs.length), st.pts k = xs[k]) ∧
      ∃ root, st.links.origin = some root ∧ HoldsEachOnce st.links root xs.length ∧
        SearchOrder { pts := st.pts, num := st.num, dim := dim, lt := lt } st.links root := by
  obtain ⟨st, e, h⟩ := addTreePoints_inv (rb := rebalance) hD hasym xs (SmartTree.empty_inv (lt := lt) (dim := dim) junkPts junkL junkR)
  simp only [List.nil_append] at h
  have hn : st.num ≠ 0 := by rw [h.num]; simpa using hx
  obtain ⟨t, hok, hp⟩ := h.tree
  have hne : t ≠ .nil := by
    rintro rfl
    have := hp.length_eq
    simp [KT.idx] at this; omega
  obtain ⟨root, h1, h2, h3⟩ := (hok hn).spec hD hne hp
  refine ⟨st, e, h.num, h.cap.resolve_left hn, h.pts, root, h1, ?_, h3⟩
  rw [← h.num]; exact h2

-- non-vacuity: three planar points (two of them equal), default policy "never rebalance"
example : ∃ st, addTreePoints natLt 2 (fun _ _ => false)
      [fun d => [3, 4].getD d 0, fun d => [5, 1].getD d 0, fun d => [3, 4].getD d 0]
      (SmartTree.empty (fun _ _ => 0) (fun _ => 0) (fun _ => 0)) = some st ∧
    follow st.links [true] 0 = some 1 ∧ follow st.links [false] 0 = some 2 ∧ st.links.origin = some 0 :=
  ⟨_, rfl, rfl, rfl, rfl⟩

/-- **C04, precondition.** In dimension zero the second insertion reads a coordinate that does not
exist. -/
theorem C04_dim_zero_undefined {κ : Type} (lt : κ → κ → Bool) (rb : Nat → Nat → Bool) (x y : Nat → κ)
    (jp : Nat → Nat → κ) (jl jr : Nat → Nat) :
    addTreePoints lt 0 rb [x, y] (SmartTree.empty jp jl jr) = none := by
  simp [addTreePoints, addTreePoint, SmartTree.empty, kdAddPoint, insertWalk]

/-! ## C05 -/

/-- **C05.** Rebuilding over `n ≥ 1` points (both copies of the code: `rf` selects the order of the two
recursive calls) terminates without out-of-range access in a tree holding each index exactly once, in
search order. -/
theorem C05_balanced_rebuild {κ : Type} (P : PointStore κ) (hasym : ∀ a b, P.lt a b = true → P.lt b a = false)
    (hD : 0 < P.dim) (hn : 0 < P.num) (rf : Bool) :
    ∃ ln root, buildBalanced P rf = some ln ∧ ln.origin = some root ∧ HoldsEachOnce ln root P.num ∧
      SearchOrder P ln root := by
  obtain ⟨ln, t, e, hok, hne, hp⟩ := buildBalanced_spec (P := P) rf hD hn hasym
  obtain ⟨root, h1, h2, h3⟩ := hok.spec hD hne hp
  exact ⟨ln, root, e, h1, h2, h3⟩

/-- **C05, precondition.** Rebuilding an empty tree is undefined behaviour. -/
theorem C05_empty_undefined {κ : Type} (P : PointStore κ) (hn : P.num = 0) (rf : Bool) : buildBalanced P rf = none := by
  simp [buildBalanced, hn]

-- non-vacuity: five planar points with repeated coordinates
example : (buildBalanced { pts := fun i d => ([[5, 2], [1, 1], [5, 7], [3, 3], [1, 9]].getD i []).getD d 0, num := 5, dim := 2, lt := natLt } false).map
    (fun ln => (ln.origin, (List.range 5).map ln.left, (List.range 5).map ln.right)) =
    some (some 3, [0, 1, 2, 1, 4], [2, 4, 2, 0, 4]) := by
  decide +kernel

end VoroCrust
