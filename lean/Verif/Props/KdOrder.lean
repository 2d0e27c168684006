import Verif.Props.KdTree
import Verif.Lemmas.KdOrder

/-! # Property C11: locality re-enumeration; trees built by arbitrary histories -/

set_option linter.unusedSimpArgs false

namespace VoroCrust

/-- Trees obtained by a history of operations: a non-empty sequence of insertions into a new tree, a
balanced rebuild over any stored points, further insertions, re-enumerations, and changes of point attributes,
in any order. -/
inductive BuiltTree {κ : Type} : PointStore κ → Links → Prop
  | inserted {dim : Nat} (lt : κ → κ → Bool) (rb : Nat → Nat → Bool) (xs : List (Nat → κ)) (jp : Nat → Nat → κ) (jl jr : Nat → Nat)
      (st : SmartTree κ) : addTreePoints lt dim rb xs (SmartTree.empty jp jl jr) = some st → xs ≠ [] →
      BuiltTree { pts := st.pts, num := st.num, dim := dim, lt := lt } st.links
  | rebuilt (P : PointStore κ) (rf : Bool) (ln : Links) : buildBalanced P rf = some ln → BuiltTree P ln
  | extended {P : PointStore κ} {ln : Links} (rb : Nat → Nat → Bool) (cap : Nat) (x : Nat → κ) (st : SmartTree κ) : BuiltTree P ln →
      P.num < cap → addTreePoint P.lt P.dim rb { pts := P.pts, num := P.num, cap := cap, links := ln } x = some st →
      BuiltTree { pts := st.pts, num := st.num, dim := P.dim, lt := P.lt } st.links
  | reenumerated {P : PointStore κ} {ln : Links} (r : ReEnum κ) : BuiltTree P ln → reEnumerate P ln = some r →
      BuiltTree r.store r.links
  | attributed {P : PointStore κ} {ln : Links} (i k : Nat) (v : κ) : BuiltTree P ln → BuiltTree (setAttr P i k v) ln

theorem setAttr_pts {κ : Type} (P : PointStore κ) (i k : Nat) (v : κ) (q d : Nat) (hd : d < P.dim) :
    (setAttr P i k v).pts q d = P.pts q d := by
  simp only [setAttr, upd]
  split
  · next h => subst h; show (if d = P.dim + k then v else P.pts q d) = P.pts q d; rw [if_neg (by omega)]
  · rfl

theorem Ordered.setAttr {κ : Type} {P : PointStore κ} (i k : Nat) (v : κ) {t : KT} {d : Nat} (hd : d < P.dim) (h : Ordered P d t) :
    Ordered (setAttr P i k v) d t := by
  induction t generalizing d with
  | nil => trivial
  | node j l r ihl ihr =>
    obtain ⟨h1, h2, h3, h4⟩ := h
    have hn : nextDim P.dim d < P.dim := by unfold nextDim; split <;> omega
    refine ⟨fun q hq => ?_, fun q hq => ?_, ihl hn h3, ihr hn h4⟩
    · rw [setAttr_pts _ _ _ _ _ _ hd, setAttr_pts _ _ _ _ _ _ hd]; exact h1 q hq
    · rw [setAttr_pts _ _ _ _ _ _ hd, setAttr_pts _ _ _ _ _ _ hd]; exact h2 q hq

theorem BuiltTree.ok {κ : Type} {P : PointStore κ} {ln : Links} (h : BuiltTree P ln) (hD : 0 < P.dim)
    (hasym : ∀ a b, P.lt a b = true → P.lt b a = false) :
    ∃ t, TreeOK P ln t ∧ t ≠ .nil ∧ t.idx.Perm (List.range P.num) := by
  have fromInv : ∀ {lt : κ → κ → Bool} {dim : Nat} {xs : List (Nat → κ)} {st : SmartTree κ}, st.Inv lt dim xs → xs ≠ [] →
      ∃ t, TreeOK { pts := st.pts, num := st.num, dim := dim, lt := lt } st.links t ∧ t ≠ .nil ∧ t.idx.Perm (List.range st.num) := by
    intro lt dim xs st hi hx
    obtain ⟨t, hok, hp⟩ := hi.tree
    have hn : st.num ≠ 0 := by rw [hi.num]; simpa using hx
    refine ⟨t, hok hn, ?_, hp⟩
    rintro rfl
    have := hp.length_eq
    simp [KT.idx] at this; omega
  induction h with
  | inserted lt rb xs jp jl jr st e hx =>
    obtain ⟨st', e', hi⟩ := addTreePoints_inv (rb := rb) hD hasym xs (SmartTree.empty_inv jp jl jr)
    rw [e] at e'; cases e'
    exact fromInv hi (by simpa using hx)
  | rebuilt P rf ln e =>
    have hn : 0 < P.num := by
      rcases Nat.eq_zero_or_pos P.num with h0 | h0
      · rw [C05_empty_undefined P h0] at e; cases e
      · exact h0
    obtain ⟨ln', t, e', hok, hne, hp⟩ := buildBalanced_spec (P := P) rf hD hn hasym
    rw [e] at e'; cases e'
    exact ⟨t, hok, hne, hp⟩
  | @extended P ln rb cap x st hb hcap e ih =>
    obtain ⟨t, hok, hne, hp⟩ := ih hD hasym
    have hi : SmartTree.Inv P.lt P.dim ((List.range P.num).map P.pts) { pts := P.pts, num := P.num, cap := cap, links := ln } :=
      ⟨by simp, Or.inr hcap, fun k hk => by simp, t, fun _ => hok, hp⟩
    obtain ⟨st', e', hi'⟩ := addTreePoint_inv (rb := rb) hD hasym hi x
    rw [e] at e'; cases e'
    exact fromInv hi' (by simp)
  | @reenumerated P ln r hb e ih =>
    have hp0 : r.store.dim = P.dim ∧ r.store.lt = P.lt := by
      unfold reEnumerate at e
      split at e
      · cases e
      · split at e
        · cases e
        · split at e
          · cases e
          · simp only at e
            split at e
            · cases e; exact ⟨rfl, rfl⟩
            · cases e
    obtain ⟨t, hok, hne, hp⟩ := ih (by rw [← hp0.1]; exact hD) (by rw [← hp0.2]; exact hasym)
    obtain ⟨r', f, e', h1, h2, h3, -, -, -, h4, h5⟩ := reEnumerate_spec hok hne hp
    rw [e] at e'; cases e'
    refine ⟨t.map f, h4, ?_, by rw [h1]; exact h5⟩
    cases t with
    | nil => exact absurd rfl hne
    | node => simp [KT.map]
  | @attributed P ln i k v hb ih =>
    obtain ⟨t, hok, hne, hp⟩ := ih hD hasym
    exact ⟨t, ⟨hok.root, hok.nodup, hok.valid, hok.fresh, hok.ordered.setAttr i k v hD⟩, hne, hp⟩

/-- Every built tree holds each point once, in search order (C04 and C05 for arbitrary histories). -/
theorem BuiltTree.spec {κ : Type} {P : PointStore κ} {ln : Links} (h : BuiltTree P ln) (hD : 0 < P.dim)
    (hasym : ∀ a b, P.lt a b = true → P.lt b a = false) :
    ∃ root, ln.origin = some root ∧ HoldsEachOnce ln root P.num ∧ SearchOrder P ln root := by
  obtain ⟨t, hok, hne, hp⟩ := h.ok hD hasym
  exact hok.spec hD hne hp

/-- **C04 for mixed histories.** Any interleaving of insertions, rebuilds and re-enumerations leaves each
point at exactly one place of the tree, in search order. -/
theorem C04_mixed_history {κ : Type} (P : PointStore κ) (ln : Links) (h : BuiltTree P ln) (hD : 0 < P.dim)
    (hasym : ∀ a b, P.lt a b = true → P.lt b a = false) :
    ∃ root, ln.origin = some root ∧ HoldsEachOnce ln root P.num ∧ SearchOrder P ln root := h.spec hD hasym

/-- **C11.** On every built tree the re-enumeration terminates without out-of-range access or read of an
uninitialised cell; old→new and new→old are mutually inverse bijections of `0..n-1`, the point data move
with their index, every child link and the root are renamed accordingly, and the result again holds every
point once in search order. -/
theorem C11_reenumeration_bijection {κ : Type} (P : PointStore κ) (ln : Links) (h : BuiltTree P ln) (hD : 0 < P.dim)
    (hasym : ∀ a b, P.lt a b = true → P.lt b a = false) :
    ∃ r, reEnumerate P ln = some r ∧ r.store.num = P.num ∧
      (∀ i, i < P.num → ∃ c, c < P.num ∧ r.oldIndex i = some c ∧ r.newIndex c = some i ∧ r.store.pts i = P.pts c) ∧
      (∀ c, c < P.num → ∃ i, i < P.num ∧ r.newIndex c = some i ∧ r.oldIndex i = some c ∧
        r.newIndex (ln.left c) = some (r.links.left i) ∧ r.newIndex (ln.right c) = some (r.links.right i)) ∧
      (∃ o, ln.origin = some o ∧ r.links.origin = r.newIndex o) ∧
      ∃ root, r.links.origin = some root ∧ HoldsEachOnce r.links root P.num ∧ SearchOrder r.store r.links root := by
  obtain ⟨t, hok, hne, hp⟩ := h.ok hD hasym
  have hch : ∀ k, k < P.num → ln.left k < P.num ∧ ln.right k < P.num := by
    intro k hk
    have hidx : ∀ k, k ∈ t.idx ↔ k < P.num := fun k => by rw [hp.mem_iff, List.mem_range]
    rcases hok.root with ⟨_, h1⟩ | ⟨o, ho, hrep⟩
    · exact absurd h1 hne
    · have := hrep.children k ((hidx k).2 hk)
      exact ⟨(hidx _).1 this.1, (hidx _).1 this.2⟩
  obtain ⟨r, f, e, h1, h2, h3, h4, h5, ⟨o, ho, ho1, ho2⟩, h6, h7⟩ := reEnumerate_spec hok hne hp
  refine ⟨r, e, h1, h4, ?_, ⟨o, ho, by rw [ho2, (h5 o ho1).2.1]⟩, ?_⟩
  · intro c hc
    obtain ⟨a, b, c1, d, e'⟩ := h5 c hc
    refine ⟨f c, a, b, c1, ?_, ?_⟩
    · rw [(h5 _ (hch c hc).1).2.1, d]
    · rw [(h5 _ (hch c hc).2).2.1, e']
  · have := (BuiltTree.reenumerated r h e).spec (by rw [h2]; exact hD) (by rw [h3]; exact hasym)
    rw [h1] at this; exact this

/-- **C11, precondition.** Re-enumerating a tree without points is undefined behaviour. -/
theorem C11_empty_undefined {κ : Type} (P : PointStore κ) (ln : Links) (h : ln.origin = none) : reEnumerate P ln = none := by
  simp [reEnumerate, h]

-- non-vacuity: a tree of four points whose preorder differs from the insertion order
example : ∃ P ln, BuiltTree (κ := Nat) P ln ∧ P.num = 4 ∧
    (reEnumerate P ln).map (fun r => ((List.range 4).map r.oldIndex, (List.range 4).map r.newIndex, r.links.origin,
      (List.range 4).map (fun i => r.store.pts i 0))) =
    some ([some 0, some 3, some 1, some 2], [some 0, some 2, some 3, some 1], some 0, [5, 9, 3, 1]) :=
  ⟨_, _, BuiltTree.inserted (dim := 1) natLt (fun _ _ => false) [fun _ => 5, fun _ => 3, fun _ => 1, fun _ => 9] (fun _ _ => 0) id id
    _ rfl (by simp), rfl, by decide +kernel⟩

end VoroCrust
