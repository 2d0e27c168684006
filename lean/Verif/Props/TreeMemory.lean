import Verif.Model.TreeMemory
import Mathlib.Data.List.Perm.Basic
import Mathlib.Data.List.Nodup
import Mathlib.Tactic.SplitIfs
import Mathlib.Order.Basic

/-!
# Properties of the memory of a tree (C129)
-/

namespace VoroCrust

/-! ## Freeing blocks -/

theorem freeBlocks_ok : ∀ (l live : List Nat), (∀ a, l.count a ≤ live.count a) → ∃ r, freeBlocks l live = some r ∧ ∀ a, r.count a = live.count a - l.count a := by
  intro l
  induction l with
  | nil => intro live _; exact ⟨live, rfl, fun a => by simp⟩
  | cons b l ih =>
    intro live h
    have hb : b ∈ live := by
      have := h b
      rw [List.count_cons_self] at this
      exact List.count_pos_iff.1 (by omega)
    unfold freeBlocks
    rw [if_pos hb]
    obtain ⟨r, h1, h2⟩ := ih (live.erase b) (fun a => by
      have := h a
      rw [List.count_cons] at this
      rw [List.count_erase]
      by_cases hab : b = a
      · subst hab; simp at this ⊢; omega
      · simp [hab] at this ⊢; omega)
    refine ⟨r, h1, fun a => ?_⟩
    rw [h2 a, List.count_erase, List.count_cons]
    by_cases hab : b = a
    · subst hab; simp; omega
    · simp [hab]

theorem freeBlocks_inv : ∀ (l live r : List Nat), freeBlocks l live = some r → (∀ a, l.count a ≤ live.count a) ∧ ∀ a, r.count a = live.count a - l.count a := by
  intro l
  induction l with
  | nil => intro live r h; cases h; exact ⟨fun a => by simp, fun a => by simp⟩
  | cons b l ih =>
    intro live r h
    unfold freeBlocks at h
    split_ifs at h with hb
    obtain ⟨h1, h2⟩ := ih _ _ h
    have hp := List.count_pos_iff.2 hb
    refine ⟨fun a => ?_, fun a => ?_⟩
    · have := h1 a
      rw [List.count_erase] at this
      rw [List.count_cons]
      by_cases hab : b = a
      · subst hab; simp at this ⊢; omega
      · simp [hab] at this ⊢; omega
    · rw [h2 a, List.count_erase, List.count_cons]
      by_cases hab : b = a
      · subst hab; simp; omega
      · simp [hab]

/-! ## The invariant -/

/-- The blocks that are allocated are those the tree will free and those of others. -/
def MemOwned (base : List Nat) (S : TreeMem) : Prop := ∀ a, S.live.count a = (ownedBlocks S).count a + base.count a

/-- The arrays and the numbers fit. -/
def MemShape (S : TreeMem) : Prop :=
  (S.num = 0 ∧ S.left = none ∧ S.right = none ∧ S.points = none ∧ S.normal = none ∧ S.attrib = none ∧ S.pts = [] ∧ S.normals = [] ∧ S.attrs = []) ∨
  (0 < S.num ∧ S.num < S.cap ∧ S.left.isSome ∧ S.right.isSome ∧ S.points.isSome ∧ S.normal.isSome ∧ S.attrib.isSome)

/-- No block is allocated twice, and none has a number yet to be given. -/
def FreshBlocks (next : Nat) (live : List Nat) : Prop := ∀ a, live.count a ≤ 1 ∧ (next ≤ a → live.count a = 0)

/-- The same for the blocks of a tree and of others. -/
def MemFresh (S : TreeMem) : Prop := FreshBlocks S.next S.live

theorem fresh_append (n k : Nat) (new live : List Nat) (hnd : new.Nodup) (hb : ∀ a ∈ new, n ≤ a ∧ a < n + k) (hf : FreshBlocks n live) :
    FreshBlocks (n + k) (new ++ live) ∧ ∀ a, a < n → (new ++ live).count a = live.count a := by
  have hone := List.nodup_iff_count_le_one.1 hnd
  refine ⟨fun a => ?_, fun a ha => ?_⟩
  · obtain ⟨f1, f2⟩ := hf a
    have h1 := hone a
    rw [List.count_append]
    by_cases hm : a ∈ new
    · have := hb a hm
      have := f2 this.1
      exact ⟨by omega, fun _ => by omega⟩
    · rw [List.count_eq_zero_of_not_mem hm]
      exact ⟨by omega, fun q => by have := f2 (by omega); omega⟩
  · rw [List.count_append, List.count_eq_zero_of_not_mem (fun hm => by have := hb a hm; omega), Nat.zero_add]

theorem fresh_le (n : Nat) (l live : List Nat) (hf : FreshBlocks n live) (h : ∀ a, l.count a ≤ live.count a) : FreshBlocks n l := fun a => by
  obtain ⟨f1, f2⟩ := hf a
  have := h a
  exact ⟨by omega, fun q => by have := f2 q; omega⟩

theorem allocBox_spec (base : List Nat) (S : TreeMem) (ho : MemOwned base S) : MemOwned base (allocBox S) ∧ (MemShape S → MemShape (allocBox S)) ∧ (allocBox S).num = S.num ∧ (allocBox S).samplers = S.samplers := by
  obtain ⟨next, live, xmin, xmax, left, right, points, normal, attrib, pts, normals, attrs, samplers, num, cap⟩ := S
  cases xmin <;> cases xmax <;>
    refine ⟨?_, fun h => h, rfl, rfl⟩ <;> intro a <;> have := ho a <;>
    simp only [allocBox, ownedBlocks, List.count_append, List.count_cons, List.count_nil, Option.toList_some, Option.toList_none] at this ⊢ <;> omega

theorem allocBox_fresh (S : TreeMem) (h : MemFresh S) : MemFresh (allocBox S) ∧ S.next ≤ (allocBox S).next ∧ (allocBox S).samplers = S.samplers ∧ ∀ a, a < S.next → (allocBox S).live.count a = S.live.count a := by
  obtain ⟨next, live, xmin, xmax, left, right, points, normal, attrib, pts, normals, attrs, samplers, num, cap⟩ := S
  cases xmin with
  | none =>
    cases xmax with
    | none =>
      obtain ⟨f1, f2⟩ := fresh_append next 2 [next + 1, next] live (by simp) (by simp) h
      exact ⟨f1, Nat.le_add_right next 2, rfl, f2⟩
    | some y =>
      obtain ⟨f1, f2⟩ := fresh_append next 1 [next] live (by simp) (by simp) h
      exact ⟨f1, Nat.le_add_right next 1, rfl, f2⟩
  | some x =>
    cases xmax with
    | none =>
      obtain ⟨f1, f2⟩ := fresh_append next 1 [next] live (by simp) (by simp) h
      exact ⟨f1, Nat.le_add_right next 1, rfl, f2⟩
    | some y => exact ⟨h, Nat.le_refl _, rfl, fun _ _ => rfl⟩

theorem firstPoint_owned (base : List Nat) (b : Bool) (S : TreeMem) (ho : MemOwned base S) (hs : MemShape S) (hz : S.num = 0) : MemOwned base (firstPoint b S) ∧ MemShape (firstPoint b S) := by
  obtain ⟨next, live, xmin, xmax, left, right, points, normal, attrib, pts, normals, attrs, samplers, num, cap⟩ := S
  rcases hs with h | h
  · obtain ⟨_, h1, h2, h3, h4, h5, h6, h7, h8⟩ := h
    simp only at h1 h2 h3 h4 h5 h6 h7 h8
    subst h1 h2 h3 h4 h5 h6 h7 h8
    refine ⟨fun a => ?_, Or.inr ⟨by simp [firstPoint], by simp [firstPoint], rfl, rfl, rfl, rfl, rfl⟩⟩
    have := ho a
    cases b <;> simp only [firstPoint, ownedBlocks, List.count_append, List.count_cons, List.count_nil, Option.toList_some, Option.toList_none, if_true, Bool.false_eq_true, if_false] at this ⊢ <;> omega
  · have := h.1
    omega

theorem growArrays_owned (base : List Nat) (S : TreeMem) (ho : MemOwned base S) (hn : 0 < S.num) (hc : S.num ≤ S.cap) (hl : S.left.isSome) (hr : S.right.isSome) (hp : S.points.isSome) (hno : S.normal.isSome) (ha : S.attrib.isSome) :
    ∃ S', growArrays S = some S' ∧ MemOwned base S' ∧ MemShape S' ∧ S'.samplers = S.samplers := by
  obtain ⟨next, live, xmin, xmax, left, right, points, normal, attrib, pts, normals, attrs, samplers, num, cap⟩ := S
  unfold growArrays
  by_cases hq : num = cap
  · simp only at hn hc
    simp only [hq, if_true]
    obtain ⟨r, h1, h2⟩ := freeBlocks_ok (points.toList ++ normal.toList ++ attrib.toList ++ left.toList ++ right.toList) ([next, next + 1, next + 2, next + 3, next + 4] ++ live) (fun a => by
      have := ho a
      simp only [ownedBlocks, List.count_append] at this ⊢
      omega)
    rw [h1]
    refine ⟨_, rfl, fun a => ?_, Or.inr ⟨?_, ?_, rfl, rfl, rfl, rfl, rfl⟩, rfl⟩
    · have := ho a
      have h2 := h2 a
      simp only [ownedBlocks, List.count_append, List.count_cons, List.count_nil, Option.toList_some] at this h2 ⊢
      omega
    · show 0 < cap
      omega
    · show cap < cap * 2
      omega
  · simp only [hq, if_false]
    exact ⟨_, rfl, ho, Or.inr ⟨hn, by simp only at hc ⊢; omega, hl, hr, hp, hno, ha⟩, rfl⟩

theorem addPointMem_owned (base : List Nat) (b : Bool) (S : TreeMem) (ho : MemOwned base S) (hs : MemShape S) : ∃ S', addPointMem b S = some S' ∧ MemOwned base S' ∧ MemShape S' ∧ S'.samplers = S.samplers := by
  obtain ⟨bo, bs, bn, bsm⟩ := allocBox_spec base S ho
  have bs := bs hs
  unfold addPointMem
  by_cases hz : S.num = 0
  · rw [if_pos hz]
    obtain ⟨f1, f2⟩ := firstPoint_owned base b _ bo bs (bn.trans hz)
    exact ⟨_, rfl, f1, f2, bsm⟩
  · rw [if_neg hz]
    rw [← bsm]
    have hz : (allocBox S).num ≠ 0 := by rw [bn]; exact hz
    generalize allocBox S = T at *
    rcases bs with h | h
    · exact absurd h.1 hz
    · obtain ⟨h1, h2, h3, h4, h5, h6, h7⟩ := h
      unfold furtherPoint
      rw [if_pos ⟨h5, h6, h7, h3, h4, h2⟩]
      exact growArrays_owned base _ (fun a => by
        have := bo a
        cases b <;> simp only [ownedBlocks, List.count_append, List.count_cons, List.count_nil, if_true, Bool.false_eq_true, if_false] at this ⊢ <;> omega) (Nat.succ_pos _) h2 h3 h4 h5 h6 h7

theorem clearTree_owned (base : List Nat) (S : TreeMem) (ho : MemOwned base S) : ∃ S', clearTree S = some S' ∧ (∀ a, S'.live.count a = base.count a) ∧ MemShape S' ∧ S'.samplers = S.samplers ∧ (S.samplers = [] → MemOwned base S') := by
  obtain ⟨r, h1, h2⟩ := freeBlocks_ok (ownedBlocks S) S.live (fun a => by have := ho a; omega)
  unfold clearTree
  rw [h1]
  have hr : ∀ a, r.count a = base.count a := fun a => by have := ho a; have := h2 a; omega
  refine ⟨_, rfl, hr, Or.inl ⟨rfl, rfl, rfl, rfl, rfl, rfl, rfl, rfl, rfl⟩, rfl, fun hsm a => ?_⟩
  simp only [ownedBlocks, hsm, List.count_append, List.count_nil, Option.toList_none]
  have := hr a
  omega

/-- No sampler is made. -/
def NoSamplers (os : List TreeOp) : Prop := ∀ k, TreeOp.samplers k ∉ os

/-- Only points are added. -/
def OnlyAdds (os : List TreeOp) : Prop := ∀ o ∈ os, ∃ a, o = TreeOp.add a

theorem treeOps_owned (base : List Nat) : ∀ (os : List TreeOp) (S : TreeMem), NoSamplers os → (S.samplers = [] ∨ OnlyAdds os) → MemOwned base S → MemShape S →
    ∃ S', treeOps os S = some S' ∧ MemOwned base S' ∧ MemShape S' ∧ S'.samplers = S.samplers := by
  intro os
  induction os with
  | nil => intro S _ _ ho hs; exact ⟨S, rfl, ho, hs, rfl⟩
  | cons o os ih =>
    intro S hno hor ho hs
    have hno' : NoSamplers os := fun k h => hno k (List.mem_cons_of_mem _ h)
    unfold treeOps
    cases o with
    | add a =>
      obtain ⟨T, h1, h2, h3, h4⟩ := addPointMem_owned base a S ho hs
      simp only [treeOp, h1]
      have hor' : T.samplers = [] ∨ OnlyAdds os := by
        rcases hor with h | h
        · left; rw [h4]; exact h
        · right; exact fun o ho => h o (List.mem_cons_of_mem _ ho)
      obtain ⟨S', k1, k2, k3, k4⟩ := ih T hno' hor' h2 h3
      exact ⟨S', k1, k2, k3, k4.trans h4⟩
    | clear =>
      rcases hor with h | h
      · obtain ⟨T, h1, _, h3, h4, h5⟩ := clearTree_owned base S ho
        simp only [treeOp, h1]
        obtain ⟨S', k1, k2, k3, k4⟩ := ih T hno' (Or.inl (h4.trans h)) (h5 h) h3
        exact ⟨S', k1, k2, k3, k4.trans h4⟩
      · obtain ⟨a, q⟩ := h TreeOp.clear (by simp)
        cases q
    | samplers k => exact absurd (by simp) (hno k)

theorem newTree_owned (next : Nat) (base : List Nat) : MemOwned base (newTree next base) ∧ MemShape (newTree next base) := by
  refine ⟨fun a => ?_, Or.inl ⟨rfl, rfl, rfl, rfl, rfl, rfl, rfl, rfl, rfl⟩⟩
  simp only [newTree, ownedBlocks, List.count_append, List.count_cons, List.count_nil, Option.toList_some, Option.toList_none]
  omega

theorem treeOps_append (os1 os2 : List TreeOp) : ∀ S : TreeMem, treeOps (os1 ++ os2) S = (treeOps os1 S).bind (treeOps os2) := by
  induction os1 with
  | nil => intro S; rfl
  | cons o os1 ih =>
    intro S
    show (match treeOp o S with | none => none | some S' => treeOps (os1 ++ os2) S') = (match treeOp o S with | none => none | some S' => treeOps os1 S').bind (treeOps os2)
    cases treeOp o S with
    | none => rfl
    | some S' => exact ih S'

/-! ## C129 -/

/-- **C129 (a).** A tree without samplers: for every list of calls that add points or clear the tree, nothing is freed twice, no null array and no place past an array is written, and after the destructor exactly the blocks of others
are allocated that were before: nothing is lost. -/
theorem C129_life_partial (next : Nat) (base : List Nat) (os : List TreeOp) (hno : NoSamplers os) : ∃ rest, treeLife os (newTree next base) = some rest ∧ rest.Perm base := by
  obtain ⟨ho, hs⟩ := newTree_owned next base
  obtain ⟨S, h1, h2, _⟩ := treeOps_owned base os _ hno (Or.inl rfl) ho hs
  obtain ⟨T, k1, k2, _⟩ := clearTree_owned base S h2
  refine ⟨T.live, ?_, List.perm_iff_count.2 k2⟩
  unfold treeLife
  rw [h1]
  simp only [k1, Option.map_some]

/-- **C129 (b).** With samplers the same holds as long as they are made once and the tree is not cleared by a call after that, but only destroyed. -/
theorem C129_samplers_partial (next : Nat) (base : List Nat) (os1 os2 : List TreeOp) (k : Nat) (hno : NoSamplers os1) (hadd : OnlyAdds os2) :
    ∃ rest, treeLife (os1 ++ TreeOp.samplers k :: os2) (newTree next base) = some rest ∧ rest.Perm base := by
  obtain ⟨ho, hs⟩ := newTree_owned next base
  obtain ⟨S, h1, h2, h3, h4⟩ := treeOps_owned base os1 _ hno (Or.inl rfl) ho hs
  have hS : S.samplers = [] := h4
  have ho2 : MemOwned base (initSamplers k S) := by
    intro a
    have := h2 a
    simp only [initSamplers, ownedBlocks, hS, List.count_append, List.count_nil] at this ⊢
    omega
  have hs2 : MemShape (initSamplers k S) := h3
  have hno2 : NoSamplers os2 := fun k h => by obtain ⟨a, q⟩ := hadd _ h; cases q
  obtain ⟨S', k1, k2, _⟩ := treeOps_owned base os2 _ hno2 (Or.inr hadd) ho2 hs2
  obtain ⟨T, l1, l2, _⟩ := clearTree_owned base S' k2
  refine ⟨T.live, ?_, List.perm_iff_count.2 l2⟩
  unfold treeLife
  rw [treeOps_append, h1]
  show (match treeOps (TreeOp.samplers k :: os2) S with | none => none | some S' => (clearTree S').map fun T : TreeMem => T.live) = _
  have : treeOps (TreeOp.samplers k :: os2) S = treeOps os2 (initSamplers k S) := rfl
  rw [this, k1]
  simp only [l1, Option.map_some]

/-! ## Freshness -/

theorem clearTree_fresh (S T : TreeMem) (h : clearTree S = some T) (hf : MemFresh S) : MemFresh T ∧ T.next = S.next ∧ T.samplers = S.samplers ∧ (∀ b ∈ S.samplers, b ∈ S.live ∧ b ∉ T.live) ∧ ∀ a, T.live.count a ≤ S.live.count a := by
  unfold clearTree at h
  split at h
  · cases h
  · rename_i live hl
    obtain ⟨h1, h2⟩ := freeBlocks_inv _ _ _ hl
    have := Option.some.inj h
    subst this
    refine ⟨fresh_le _ _ _ hf fun a => by have := h2 a; simp only; omega, rfl, rfl, fun b hb => ⟨?_, ?_⟩, fun a => by have := h2 a; simp only; omega⟩
    · have := h1 b
      have hc : 0 < (ownedBlocks S).count b := List.count_pos_iff.2 (by unfold ownedBlocks; exact List.mem_append_right _ hb)
      exact List.count_pos_iff.1 (by omega)
    · have h2 := h2 b
      have hc : 0 < (ownedBlocks S).count b := List.count_pos_iff.2 (by unfold ownedBlocks; exact List.mem_append_right _ hb)
      have := (hf b).1
      intro q
      have q : 0 < live.count b := List.count_pos_iff.2 q
      omega

theorem firstPoint_fresh (b : Bool) (U : TreeMem) (h : MemFresh U) : MemFresh (firstPoint b U) ∧ U.next ≤ (firstPoint b U).next ∧ (firstPoint b U).samplers = U.samplers ∧ ∀ a, a < U.next → (firstPoint b U).live.count a ≤ U.live.count a := by
  obtain ⟨f1, f2⟩ := fresh_append U.next 8 ([U.next, U.next + 1, U.next + 2, U.next + 3, U.next + 4] ++ (if b then [U.next + 5] else []) ++ [U.next + 6, U.next + 7]) U.live
    (by cases b <;> simp) (by cases b <;> simp) h
  exact ⟨f1, Nat.le_add_right _ 8, rfl, fun a ha => Nat.le_of_eq (f2 a ha)⟩

theorem growArrays_fresh (U T : TreeMem) (hT : growArrays U = some T) (h : MemFresh U) : MemFresh T ∧ U.next ≤ T.next ∧ T.samplers = U.samplers ∧ ∀ a, a < U.next → T.live.count a ≤ U.live.count a := by
  unfold growArrays at hT
  split_ifs at hT
  · split at hT
    · cases hT
    · rename_i l hl
      obtain ⟨_, h2⟩ := freeBlocks_inv _ _ _ hl
      have := Option.some.inj hT
      subst this
      obtain ⟨f1, f2⟩ := fresh_append U.next 5 [U.next, U.next + 1, U.next + 2, U.next + 3, U.next + 4] U.live (by simp) (by simp) h
      refine ⟨fresh_le _ _ _ f1 fun a => ?_, Nat.le_add_right _ 5, rfl, fun a ha => ?_⟩
      · have := h2 a
        simp only at this ⊢
        omega
      · have := h2 a
        have := f2 a ha
        simp only at *
        omega
  · have := Option.some.inj hT
    subst this
    exact ⟨h, Nat.le_refl _, rfl, fun _ _ => Nat.le_refl _⟩

theorem furtherPoint_fresh (b : Bool) (U T : TreeMem) (hT : furtherPoint b U = some T) (h : MemFresh U) : MemFresh T ∧ U.next ≤ T.next ∧ T.samplers = U.samplers ∧ ∀ a, a < U.next → T.live.count a ≤ U.live.count a := by
  unfold furtherPoint at hT
  by_cases hc : U.points.isSome ∧ U.normal.isSome ∧ U.attrib.isSome ∧ U.left.isSome ∧ U.right.isSome ∧ U.num < U.cap
  swap
  · rw [if_neg hc] at hT; cases hT
  rw [if_pos hc] at hT
  obtain ⟨f1, f2⟩ := fresh_append U.next 3 ([U.next, U.next + 1] ++ (if b then [U.next + 2] else [])) U.live (by cases b <;> simp) (by cases b <;> simp) h
  obtain ⟨g1, g2, g3, g4⟩ := growArrays_fresh _ T hT f1
  simp only at g2 g3 g4
  refine ⟨g1, by omega, g3, fun a ha => ?_⟩
  rw [← f2 a ha]
  exact g4 a (by omega)

theorem addPointMem_fresh (b : Bool) (S T : TreeMem) (h : addPointMem b S = some T) (hf : MemFresh S) : MemFresh T ∧ S.next ≤ T.next ∧ T.samplers = S.samplers ∧ ∀ a, a < S.next → T.live.count a ≤ S.live.count a := by
  obtain ⟨b1, b2, b3, b4⟩ := allocBox_fresh S hf
  unfold addPointMem at h
  have key : MemFresh T ∧ (allocBox S).next ≤ T.next ∧ T.samplers = (allocBox S).samplers ∧ ∀ a, a < (allocBox S).next → T.live.count a ≤ (allocBox S).live.count a := by
    split_ifs at h
    · have := Option.some.inj h
      subst this
      exact firstPoint_fresh b _ b1
    · exact furtherPoint_fresh b _ T h b1
  refine ⟨key.1, Nat.le_trans b2 key.2.1, key.2.2.1.trans b3, fun a ha => ?_⟩
  rw [← b4 a ha]
  exact key.2.2.2 a (Nat.lt_of_lt_of_le ha b2)

theorem initSamplers_fresh (k : Nat) (S : TreeMem) (hf : MemFresh S) : MemFresh (initSamplers k S) :=
  (fresh_append S.next k ((List.range k).map (S.next + ·)) S.live (List.Nodup.map (fun x y h => by simpa using h) List.nodup_range)
    (fun a hm => by
      obtain ⟨i, hi, q⟩ := List.mem_map.1 hm
      have := List.mem_range.1 hi
      omega) hf).1

theorem treeOps_fresh : ∀ (os : List TreeOp) (S T : TreeMem), treeOps os S = some T → MemFresh S → MemFresh T ∧ S.next ≤ T.next := by
  intro os
  induction os with
  | nil => intro S T h hf; cases h; exact ⟨hf, Nat.le_refl _⟩
  | cons o os ih =>
    intro S T h hf
    unfold treeOps at h
    split at h
    · cases h
    · rename_i S' hs
      cases o with
      | add a =>
        obtain ⟨a1, a2, _⟩ := addPointMem_fresh a S S' hs hf
        obtain ⟨c1, c2⟩ := ih S' T h a1
        exact ⟨c1, Nat.le_trans a2 c2⟩
      | clear =>
        obtain ⟨a1, a2, _⟩ := clearTree_fresh S S' hs hf
        obtain ⟨c1, c2⟩ := ih S' T h a1
        exact ⟨c1, a2 ▸ c2⟩
      | samplers k =>
        have : S' = initSamplers k S := (Option.some.inj hs).symm
        subst this
        obtain ⟨c1, c2⟩ := ih _ T h (initSamplers_fresh k S hf)
        exact ⟨c1, Nat.le_trans (by simp [initSamplers]) c2⟩

/-- A sampler that was freed stays freed, and the tree keeps the pointer to it. -/
theorem treeOps_dangling (b : Nat) : ∀ (os : List TreeOp) (S T : TreeMem), NoSamplers os → treeOps os S = some T → MemFresh S → b < S.next → b ∈ S.samplers → (b ∉ S.live → b ∉ T.live) ∧ b ∈ T.samplers ∧ (TreeOp.clear ∈ os → b ∉ T.live) := by
  intro os
  induction os with
  | nil => intro S T _ h _ _ hb; cases h; exact ⟨fun q => q, hb, by simp⟩
  | cons o os ih =>
    intro S T hno h hf hlt hb
    have hno' : NoSamplers os := fun k h => hno k (List.mem_cons_of_mem _ h)
    unfold treeOps at h
    split at h
    · cases h
    · rename_i S' hs
      cases o with
      | add a =>
        obtain ⟨a1, a2, a3, a4⟩ := addPointMem_fresh a S S' hs hf
        obtain ⟨c1, c2, c3⟩ := ih S' T hno' h a1 (Nat.lt_of_lt_of_le hlt a2) (a3 ▸ hb)
        refine ⟨fun q => c1 fun q' => q ?_, c2, fun q => c3 (by simpa using q)⟩
        have := a4 b hlt
        have := List.count_pos_iff.2 q'
        exact List.count_pos_iff.1 (by omega)
      | clear =>
        obtain ⟨a1, a2, a3, a4, a5⟩ := clearTree_fresh S S' hs hf
        obtain ⟨c1, c2, c3⟩ := ih S' T hno' h a1 (a2 ▸ hlt) (a3 ▸ hb)
        have hd := c1 (a4 b hb).2
        exact ⟨fun _ => hd, c2, fun _ => hd⟩
      | samplers k => exact absurd (by simp) (hno k)

/-- **C129 (c).** A tree with samplers that is cleared by a call: the samplers are freed and the pointers to them kept, so whatever is done before, between and after, the destructor frees them again. -/
theorem C129_samplers_undefined (next : Nat) (base : List Nat) (hbase : base.Nodup) (hnext : ∀ a ∈ base, a < next) (os1 os2 : List TreeOp) (k : Nat) (hk : 0 < k) (hno : NoSamplers os2) (hclear : TreeOp.clear ∈ os2) :
    treeLife (os1 ++ TreeOp.samplers k :: os2) (newTree next base) = none := by
  have hf0 : MemFresh (newTree next base) :=
    (fresh_append next 2 [next, next + 1] base (by simp) (by simp) fun a =>
      ⟨List.nodup_iff_count_le_one.1 hbase a, fun q => List.count_eq_zero_of_not_mem fun hm => by have := hnext a hm; omega⟩).1
  unfold treeLife
  rw [treeOps_append]
  cases h1 : treeOps os1 (newTree next base) with
  | none => rfl
  | some S =>
    obtain ⟨hf, _⟩ := treeOps_fresh os1 _ S h1 hf0
    show (match treeOps os2 (initSamplers k S) with | none => none | some S' => (clearTree S').map fun T : TreeMem => T.live) = none
    cases h2 : treeOps os2 (initSamplers k S) with
    | none => rfl
    | some T =>
      have hm : S.next ∈ (initSamplers k S).samplers := List.mem_map.2 ⟨0, List.mem_range.2 hk, rfl⟩
      obtain ⟨_, d2, d3⟩ := treeOps_dangling S.next os2 (initSamplers k S) T hno h2 (initSamplers_fresh k S hf) (by simp only [initSamplers]; omega) hm
      have hnl := d3 hclear
      cases h3 : clearTree T with
      | none => simp [h3]
      | some U =>
        exfalso
        have hfT := (treeOps_fresh os2 _ T h2 (initSamplers_fresh k S hf)).1
        exact hnl ((clearTree_fresh T U h3 hfT).2.2.2.1 S.next d2).1

/-- **C129 (d).** A tree that is made from an array of points cannot take another point: its arrays are full and it has no array of normals. -/
theorem C129_array_undefined (next : Nat) (base : List Nat) (p : Nat) (ps : List Nat) (hps : ps ≠ []) (a : Bool) (os : List TreeOp) : treeLife (TreeOp.add a :: os) (newTreeFrom next base p ps) = none := by
  have h : addPointMem a (newTreeFrom next base p ps) = none := by
    unfold addPointMem
    rw [if_neg (by show ps.length ≠ 0; exact fun h => hps (List.length_eq_zero_iff.1 h))]
    show furtherPoint a (newTreeFrom next base p ps) = none
    unfold furtherPoint
    rw [if_neg]
    rintro ⟨_, h, _⟩
    simp [newTreeFrom] at h
  unfold treeLife treeOps
  simp only [treeOp, h]

/-- **C129 (e).** It can be destroyed, and it frees the array and the points that were given to it. -/
theorem C129_array_destroyed (next : Nat) (base others : List Nat) (p : Nat) (ps : List Nat) (hb : base.Perm (p :: ps ++ others)) : ∃ rest, treeLife [] (newTreeFrom next base p ps) = some rest ∧ rest.Perm others := by
  have ho : MemOwned others (newTreeFrom next base p ps) := by
    intro a
    have := List.perm_iff_count.1 hb a
    simp only [newTreeFrom, ownedBlocks, List.count_append, List.count_cons, List.count_nil, List.cons_append, Option.toList_some, Option.toList_none] at this ⊢
    omega
  obtain ⟨T, k1, k2, _⟩ := clearTree_owned others _ ho
  refine ⟨T.live, ?_, List.perm_iff_count.2 k2⟩
  unfold treeLife treeOps
  simp only [k1, Option.map_some]

/-! ## Examples -/

/-- Points, a call of `clear_memory`, and points again: nothing is left, and the block 7 of others stays. -/
example : treeLife [.add true, .add false, .clear, .add true] (newTree 10 [7]) = some [7] := by decide +kernel

/-- Two hundred points, so that the arrays are enlarged twice. -/
example : ∃ rest, treeLife (List.replicate 200 (.add true)) (newTree 10 [7]) = some rest ∧ rest.Perm [7] :=
  C129_life_partial 10 [7] _ fun k h => by have := List.eq_of_mem_replicate h; cases this

/-- Samplers and a call of `clear_memory`. -/
example : treeLife [.add true, .samplers 2, .clear] (newTree 10 [7]) = none := by decide +kernel

/-- Samplers and no such call. -/
example : treeLife [.add true, .samplers 2, .add false] (newTree 10 [7]) = some [7] := by decide +kernel

/-- Samplers made twice: the first ones are lost. -/
example : treeLife [.samplers 1, .samplers 1] (newTree 10 [7]) = some [12, 7] := by decide +kernel

end VoroCrust
