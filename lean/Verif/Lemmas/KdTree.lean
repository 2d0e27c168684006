import Verif.Model.KdTree
import Verif.Lemmas.Memory
import Mathlib.Data.List.Perm.Basic
import Mathlib.Data.List.Nodup

/-! # Lemmas about kd-tree insertion and balanced rebuild -/

set_option linter.unusedSimpArgs false

namespace VoroCrust

/-- Inductive trees of point indices, the abstraction of the child tables. -/
inductive KT where
  | nil : KT
  | node (i : Nat) (l r : KT) : KT
  deriving DecidableEq

/-- Indices stored in a tree (preorder). -/
def KT.idx : KT → List Nat
  | .nil => []
  | .node i l r => i :: (l.idx ++ r.idx)

/-- The child tables represent the tree `t` rooted at node `i`: `left[i] == i` means no left child. -/
def Rep (L R : Nat → Nat) : Nat → KT → Prop
  | _, .nil => False
  | i, .node j l r => i = j ∧ ((l = .nil ∧ L i = i) ∨ (L i ≠ i ∧ Rep L R (L i) l)) ∧
      ((r = .nil ∧ R i = i) ∨ (R i ≠ i ∧ Rep L R (R i) r))

/-- Search order: below the left child nothing is larger than the node in the split coordinate, below
the right child everything is larger. -/
def Ordered {κ : Type} (P : PointStore κ) : Nat → KT → Prop
  | _, .nil => True
  | d, .node i l r => (∀ j ∈ l.idx, P.lt (P.pts i d) (P.pts j d) = false) ∧
      (∀ j ∈ r.idx, P.lt (P.pts i d) (P.pts j d) = true) ∧
      Ordered P (nextDim P.dim d) l ∧ Ordered P (nextDim P.dim d) r

/-- Insertion into the inductive tree. -/
def KT.ins {κ : Type} (P : PointStore κ) (s : Nat) : Nat → KT → KT
  | _, .nil => .node s .nil .nil
  | d, .node i l r =>
    if P.lt (P.pts i d) (P.pts s d) then .node i l (KT.ins P s (nextDim P.dim d) r)
    else .node i (KT.ins P s (nextDim P.dim d) l) r

theorem Rep.ne_nil {L R : Nat → Nat} {i : Nat} {t : KT} (h : Rep L R i t) : t ≠ .nil := by
  cases t <;> simp_all [Rep]

theorem Rep.mem {L R : Nat → Nat} {i : Nat} {t : KT} (h : Rep L R i t) : i ∈ t.idx := by
  cases t with
  | nil => simp [Rep] at h
  | node j l r => simp only [Rep] at h; simp [KT.idx, h.1]

theorem Rep.congr {L R L' R' : Nat → Nat} {i : Nat} {t : KT} (h : Rep L R i t)
    (hc : ∀ k ∈ t.idx, L' k = L k ∧ R' k = R k) : Rep L' R' i t := by
  induction t generalizing i with
  | nil => simp [Rep] at h
  | node j l r ihl ihr =>
    simp only [Rep] at h ⊢
    obtain ⟨rfl, hl, hr⟩ := h
    have hi := hc i (by simp [KT.idx])
    refine ⟨rfl, ?_, ?_⟩
    · rcases hl with ⟨h1, h2⟩ | ⟨h1, h2⟩
      · exact Or.inl ⟨h1, by rw [hi.1]; exact h2⟩
      · refine Or.inr ⟨by rw [hi.1]; exact h1, ?_⟩
        rw [hi.1]; exact ihl h2 (fun k hk => hc k (by simp [KT.idx, hk]))
    · rcases hr with ⟨h1, h2⟩ | ⟨h1, h2⟩
      · exact Or.inl ⟨h1, by rw [hi.2]; exact h2⟩
      · refine Or.inr ⟨by rw [hi.2]; exact h1, ?_⟩
        rw [hi.2]; exact ihr h2 (fun k hk => hc k (by simp [KT.idx, hk]))

section
variable {κ : Type} {P : PointStore κ}

theorem KT.ins_idx (s d : Nat) (t : KT) : (KT.ins P s d t).idx.Perm (s :: t.idx) := by
  induction t generalizing d with
  | nil => simp [KT.ins, KT.idx]
  | node i l r ihl ihr =>
    simp only [KT.ins]
    split
    · simp only [KT.idx]
      have := (ihr (nextDim P.dim d)).append_left l.idx
      refine (List.Perm.cons i (this.trans List.perm_middle)).trans ?_
      exact List.Perm.swap s i _
    · simp only [KT.idx]
      have := (ihl (nextDim P.dim d)).append_right r.idx
      refine (List.Perm.cons i this).trans ?_
      exact List.Perm.swap s i _

theorem KT.ins_ordered {s d : Nat} {t : KT} (h : Ordered P d t) : Ordered P d (KT.ins P s d t) := by
  induction t generalizing d with
  | nil => simp [KT.ins, Ordered, KT.idx]
  | node i l r ihl ihr =>
    simp only [Ordered] at h
    obtain ⟨h1, h2, h3, h4⟩ := h
    simp only [KT.ins]
    split
    · rename_i hc
      refine ⟨h1, ?_, h3, ihr h4⟩
      intro j hj
      rcases List.mem_cons.1 ((KT.ins_idx s _ r).mem_iff.1 hj) with rfl | hj
      · exact hc
      · exact h2 j hj
    · rename_i hc
      refine ⟨?_, h2, ihl h3, h4⟩
      intro j hj
      rcases List.mem_cons.1 ((KT.ins_idx s _ l).mem_iff.1 hj) with rfl | hj
      · simpa using hc
      · exact h1 j hj

theorem nextDim_lt {dim d : Nat} (h : d < dim) : nextDim dim d < dim := by
  unfold nextDim; split <;> omega

theorem insertWalk_spec {L R : Nat → Nat} {s : Nat} (hs : s < P.num) (hLs : L s = s) (hRs : R s = s)
    (fuel : Nat) (t : KT) (p d h : Nat) (hd : d < P.dim) (hrep : Rep L R p t) (hnd : t.idx.Nodup)
    (hst : s ∉ t.idx) (hb : ∀ k ∈ t.idx, k < P.num) (hf : t.idx.length ≤ fuel) :
    ∃ L' R' h', insertWalk P L R s fuel p d h = some (L', R', h') ∧ Rep L' R' p (KT.ins P s d t) ∧
      (∀ k, k ∉ t.idx → L' k = L k ∧ R' k = R k) := by
  induction t generalizing fuel p d h with
  | nil => simp [Rep] at hrep
  | node i l r ihl ihr =>
    simp only [Rep] at hrep
    obtain ⟨rfl, hl, hr⟩ := hrep
    simp only [KT.idx, List.nodup_cons, List.mem_append, not_or, List.mem_cons, List.length_cons,
      List.length_append] at hnd hst hf hb
    obtain ⟨⟨hpl, hpr⟩, hnd⟩ := hnd
    obtain ⟨hsp, hsl, hsr⟩ := hst
    have hndl := (List.nodup_append.1 hnd).1
    have hndr := (List.nodup_append.1 hnd).2.1
    have hdis := (List.nodup_append.1 hnd).2.2
    obtain ⟨f, rfl⟩ : ∃ f, fuel = f + 1 := ⟨fuel - 1, by omega⟩
    have hpn : p < P.num := hb p (Or.inl rfl)
    simp only [insertWalk, hs, hpn, hd, and_self, if_true, KT.ins]
    by_cases hc : P.lt (P.pts p d) (P.pts s d) = true
    · simp only [hc, if_true]
      rcases hr with ⟨h1, h2⟩ | ⟨h1, h2⟩
      · subst h1
        simp only [h2, if_true]
        refine ⟨L, upd R p s, h + 1, rfl, ?_, ?_⟩
        · simp only [KT.ins, Rep]
          refine ⟨trivial, ?_, Or.inr ⟨?_, ?_⟩⟩
          · rcases hl with hl | ⟨hl1, hl2⟩
            · exact Or.inl hl
            · refine Or.inr ⟨hl1, hl2.congr ?_⟩
              intro k hk
              refine ⟨rfl, ?_⟩
              have : k ≠ p := fun e => hpl (e ▸ hk)
              simp [upd, this]
          · simp [upd, hsp]
          · simp [Rep, upd, hsp, hLs, hRs]
        · intro k hk
          simp only [KT.idx, List.mem_cons, not_or] at hk
          simp [upd, hk.1]
      · simp only [h1, if_false]
        obtain ⟨L', R', h', e, hrep', hfr⟩ := ihr f (R p) (nextDim P.dim d) (h + 1) (nextDim_lt hd) h2 hndr hsr
          (fun k hk => hb k (Or.inr (Or.inr hk))) (by omega)
        refine ⟨L', R', h', e, ?_, ?_⟩
        · simp only [Rep]
          have hp' := hfr p hpr
          refine ⟨trivial, ?_, Or.inr ⟨by rw [hp'.2]; exact h1, by rw [hp'.2]; exact hrep'⟩⟩
          rcases hl with ⟨hl1, hl2⟩ | ⟨hl1, hl2⟩
          · exact Or.inl ⟨hl1, by rw [hp'.1]; exact hl2⟩
          · refine Or.inr ⟨by rw [hp'.1]; exact hl1, ?_⟩
            rw [hp'.1]
            exact hl2.congr (fun k hk => hfr k (fun hk' => hdis k hk k hk' rfl))
        · intro k hk
          simp only [KT.idx, List.mem_cons, List.mem_append, not_or] at hk
          exact hfr k hk.2.2
    · simp only [hc, if_false, Bool.false_eq_true]
      rcases hl with ⟨h1, h2⟩ | ⟨h1, h2⟩
      · subst h1
        simp only [h2, if_true]
        refine ⟨upd L p s, R, h + 1, rfl, ?_, ?_⟩
        · simp only [KT.ins, Rep]
          refine ⟨trivial, Or.inr ⟨?_, ?_⟩, ?_⟩
          · simp [upd, hsp]
          · simp [Rep, upd, hsp, hLs, hRs]
          · rcases hr with hr | ⟨hr1, hr2⟩
            · exact Or.inl hr
            · refine Or.inr ⟨hr1, hr2.congr ?_⟩
              intro k hk
              refine ⟨?_, rfl⟩
              have : k ≠ p := fun e => hpr (e ▸ hk)
              simp [upd, this]
        · intro k hk
          simp only [KT.idx, List.mem_cons, not_or] at hk
          simp [upd, hk.1]
      · simp only [h1, if_false]
        obtain ⟨L', R', h', e, hrep', hfr⟩ := ihl f (L p) (nextDim P.dim d) (h + 1) (nextDim_lt hd) h2 hndl hsl
          (fun k hk => hb k (Or.inr (Or.inl hk))) (by omega)
        refine ⟨L', R', h', e, ?_, ?_⟩
        · simp only [Rep]
          have hp' := hfr p hpl
          refine ⟨trivial, Or.inr ⟨by rw [hp'.1]; exact h1, by rw [hp'.1]; exact hrep'⟩, ?_⟩
          rcases hr with ⟨hr1, hr2⟩ | ⟨hr1, hr2⟩
          · exact Or.inl ⟨hr1, by rw [hp'.2]; exact hr2⟩
          · refine Or.inr ⟨by rw [hp'.2]; exact hr1, ?_⟩
            rw [hp'.2]
            exact hr2.congr (fun k hk => hfr k (fun hk' => hdis k hk' k hk rfl))
        · intro k hk
          simp only [KT.idx, List.mem_cons, List.mem_append, not_or] at hk
          exact hfr k hk.2.1

/-- The child tables with their root represent the ordered tree `t` over valid indices. -/
structure TreeOK (P : PointStore κ) (ln : Links) (t : KT) : Prop where
  root : (ln.origin = none ∧ t = .nil) ∨ ∃ o, ln.origin = some o ∧ Rep ln.left ln.right o t
  nodup : t.idx.Nodup
  valid : ∀ k ∈ t.idx, k < P.num
  fresh : ∀ k, k < P.num → k ∉ t.idx → ln.left k = k ∧ ln.right k = k
  ordered : Ordered P 0 t

theorem length_le_of_nodup_lt {l : List Nat} {n : Nat} (hnd : l.Nodup) (hb : ∀ k ∈ l, k < n) : l.length ≤ n := by
  have : l ⊆ List.range n := fun k hk => List.mem_range.2 (hb k hk)
  simpa using (List.subperm_of_subset hnd this).length_le

theorem kdAddPoint_ok {ln : Links} {t : KT} (hD : 0 < P.dim) (h : TreeOK P ln t) (hne : t ≠ .nil) {s : Nat}
    (hs : s < P.num) (hst : s ∉ t.idx) :
    ∃ ln', kdAddPoint P ln s = some ln' ∧ TreeOK P ln' (KT.ins P s 0 t) ∧ ln'.origin = ln.origin := by
  rcases h.root with ⟨_, h1⟩ | ⟨o, ho, hrep⟩
  · exact absurd h1 hne
  · obtain ⟨L', R', h', e, hrep', hfr⟩ := insertWalk_spec (P := P) hs (h.fresh s hs hst).1 (h.fresh s hs hst).2 P.num t o 0 1
      hD hrep h.nodup hst h.valid (length_le_of_nodup_lt h.nodup h.valid)
    refine ⟨{ left := L', right := R', origin := some o, height := max ln.height h' }, by simp [kdAddPoint, ho, e], ?_, ho.symm⟩
    have hp := KT.ins_idx (P := P) s 0 t
    refine ⟨Or.inr ⟨o, rfl, hrep'⟩, hp.nodup_iff.2 (List.nodup_cons.2 ⟨hst, h.nodup⟩), ?_, ?_, KT.ins_ordered h.ordered⟩
    · intro k hk
      rcases List.mem_cons.1 (hp.mem_iff.1 hk) with rfl | hk
      · exact hs
      · exact h.valid k hk
    · intro k hkn hk
      have hk' : k ∉ t.idx := fun hh => hk (hp.mem_iff.2 (List.mem_cons_of_mem _ hh))
      have := hfr k hk'
      have hf := h.fresh k hkn hk'
      exact ⟨this.1.trans hf.1, this.2.trans hf.2⟩

theorem addAt_ok {ln : Links} {t : KT} (hD : 0 < P.dim) (h : TreeOK P ln t) {T : Nat → Nat} {pos : Nat} (hpos : pos < P.num)
    (hs : T pos < P.num) (hst : T pos ∉ t.idx) :
    ∃ ln' t', addAt P T pos ln = some ln' ∧ TreeOK P ln' t' ∧ t' ≠ .nil ∧ t'.idx.Perm (T pos :: t.idx) := by
  rcases h.root with ⟨h0, h1⟩ | ⟨o, ho, hrep⟩
  · subst h1
    refine ⟨{ ln with origin := some (T pos) }, .node (T pos) .nil .nil, by simp [addAt, hpos, h0], ?_, by simp, by simp [KT.idx]⟩
    have hf := h.fresh _ hs (by simp [KT.idx])
    refine ⟨Or.inr ⟨_, rfl, ?_⟩, by simp [KT.idx], ?_, fun k hkn _ => h.fresh k hkn (by simp [KT.idx]), by simp [Ordered, KT.idx]⟩
    · simp [Rep, hf.1, hf.2]
    · intro k hk; simp [KT.idx] at hk; omega
  · obtain ⟨ln', e, hok, -⟩ := kdAddPoint_ok hD h hrep.ne_nil hs hst
    refine ⟨ln', _, by simp [addAt, hpos, ho, e], hok, ?_, KT.ins_idx _ _ _⟩
    cases t <;> simp [KT.ins]
    split <;> simp

end

/-! ## Partition on a full range (shared by quicksort-like routines) -/

section
variable {κ C : Type} {lt : κ → κ → Bool} {n : Nat}

theorem partition_full {sw : Nat → Nat → C → C} (hasym : ∀ a b, lt a b = true → lt b a = false)
    (x : Nat → κ) (c : C) (left right : Nat) (hlr : left ≤ right) (hr : right < n) :
    ∃ s L, partitionLoop lt n sw (x ((left + right) / 2)) (n + 2) { x := x, c := c, i := left, j := right } = some s ∧
      PInv lt (x ((left + right) / 2)) left right s ∧ s.j < s.i ∧ left + 1 ≤ s.i ∧ (s.j < right ∨ s.j = 0) ∧
      SwapsIn left right L ∧ s.x = runSwaps x L := by
  set m := (left + right) / 2 with hm
  set p := x m with hp
  have hirr : lt p p = false := by
    cases hh : lt p p
    · rfl
    · exact absurd hh (by rw [hasym _ _ hh]; simp)
  have hI0 : PInv lt p left right ({ x := x, c := c, i := left, j := right } : PartState κ C) :=
    { hi := le_refl _
      hi' := by show left ≤ right + 1; omega
      hj := le_refl _
      lo := fun k h1 h2 => by have : k < left := h2; omega
      hi2 := fun k h1 h2 => by have : right < k := h1; omega
      up := fun _ => ⟨m, by show left ≤ m; omega, by omega, hirr⟩
      dn := fun _ => ⟨m, by omega, by show m ≤ right; omega, hirr⟩ }
  obtain ⟨i0, j0, ei, ej, b1, b2, b3, b4, bU, bD, hA, -⟩ := partition_step (sw := sw) hasym hr hI0 hlr
  have hi0 : i0 ≤ m := bU m (by show left ≤ m; omega) (by omega) hirr
  have hj0 : m ≤ j0 := bD m (by omega) (by show m ≤ right; omega) hirr
  have hij0 : i0 ≤ j0 := by omega
  have b1 : left ≤ i0 := b1
  have b3 : j0 ≤ right := b3
  obtain ⟨s, L, e, hI, hlt, g1, g2, g3, g4, -⟩ := partition_spec (sw := sw) hasym hr (n + 1) _ (hA hij0)
    (by show right + 3 ≤ n + 1 + (i0 + 1); omega)
  have g1 : i0 + 1 ≤ s.i := g1
  have g2 : s.j ≤ (if j0 > 0 then j0 - 1 else j0) := g2
  refine ⟨s, (i0, j0) :: L, ?_, hI, hlt, by omega, by split at g2 <;> omega, ?_, ?_⟩
  · simp only [partitionLoop, hlr, if_true, ei, ej, hij0]; exact e
  · intro q hq
    rcases List.mem_cons.1 hq with rfl | hq
    · show left ≤ i0 ∧ i0 ≤ right ∧ left ≤ j0 ∧ j0 ≤ right; omega
    · exact g3 q hq
  · have : s.x = runSwaps (swapAt x i0 j0) L := g4
    rw [this]; rfl

end

section
variable {κ : Type} {P : PointStore κ}

theorem runSwaps_frame {α : Type} {a b : Nat} {L : List (Nat × Nat)} (h : SwapsIn a b L) (x : Nat → α) {k : Nat}
    (hk : k < a ∨ b < k) : runSwaps x L k = x k := by
  rw [runSwaps_eq]; simp [permOf_fix h hk]

theorem runSwaps_inv {α : Type} {a b : Nat} {L : List (Nat × Nat)} (h : SwapsIn a b L) (x : Nat → α) {Q : α → Prop}
    (hx : ∀ k, a ≤ k → k ≤ b → Q (x k)) : ∀ k, a ≤ k → k ≤ b → Q (runSwaps x L k) := by
  intro k h1 h2
  rw [runSwaps_eq]
  have := permOf_mem h ⟨h1, h2⟩
  exact hx _ this.1 this.2

/-- Effect of `adjustTarget`: a permutation inside `[left, right]` that puts at `target` an element
splitting the range. -/
theorem adjustTarget_spec {rf : Bool} {target d : Nat} (hd : d < P.dim)
    (hasym : ∀ a b, P.lt a b = true → P.lt b a = false)
    (fuel : Nat) (T : Nat → Nat) (left right : Nat) (hlr : left ≤ right) (hr : right < P.num)
    (ht : left ≤ target ∧ target ≤ right) (hf : right < fuel + left) :
    ∃ T' L, adjustTarget P rf target d fuel T left right = some T' ∧ SwapsIn left right L ∧ T' = runSwaps T L ∧
      ((∀ a b c, P.lt b a = false → P.lt c b = false → P.lt c a = false) →
        (∀ k, left ≤ k → k ≤ target → P.lt (P.pts (T' target) d) (P.pts (T' k) d) = false) ∧
        (∀ k, target ≤ k → k ≤ right → P.lt (P.pts (T' k) d) (P.pts (T' target) d) = false)) := by
  induction fuel generalizing T left right with
  | zero => omega
  | succ fuel ih =>
    have hmid : (left + right) / 2 < P.num := by omega
    have hirr : ∀ a, P.lt a a = false := by
      intro a
      cases hh : P.lt a a
      · rfl
      · exact absurd hh (by rw [hasym _ _ hh]; simp)
    obtain ⟨s, L, e, hI, hji, hi, hj, hsw, hx⟩ := partition_full (n := P.num) (sw := fun _ _ (u : Unit) => u)
      (lt := fun a b => P.lt (P.pts a d) (P.pts b d)) (fun a b => hasym _ _) T () left right hlr hr
    rw [adjustTarget]
    simp only [hmid, hd, and_self, if_true, e]
    have hI1 := hI.hi
    have hI2 := hI.hi'
    have hI3 := hI.hj
    -- the two conditions
    by_cases hL : s.j > 0 ∧ left < s.j ∧ left ≤ target ∧ target ≤ s.j
    · have hR : ¬ (s.i < right ∧ s.i ≤ target ∧ target ≤ right) := by omega
      obtain ⟨T', L', e', hsw', hx', hsel⟩ := ih s.x left s.j (by omega) (by omega) (by omega) (by omega)
      refine ⟨T', L ++ L', ?_, hsw.append (hsw'.mono (le_refl _) (by omega)), by rw [runSwaps_append, ← hx, hx'], ?_⟩
      · cases rf <;> simp [hL, hR, e']
      · intro htr
        obtain ⟨h1, h2⟩ := hsel htr
        refine ⟨h1, ?_⟩
        intro k hk1 hk2
        by_cases hkj : k ≤ s.j
        · exact h2 k hk1 hkj
        · have ha := hI.hi2 k (by omega) hk2
          have hb : P.lt (P.pts (T ((left + right) / 2)) d) (P.pts (T' target) d) = false := by
            rw [hx']
            exact runSwaps_inv hsw' s.x (Q := fun v => P.lt (P.pts (T ((left + right) / 2)) d) (P.pts v d) = false)
              (fun k h1 h2 => hI.lo k h1 (by omega)) target (by omega) (by omega)
          have hc : T' k = s.x k := by rw [hx']; exact runSwaps_frame hsw' _ (Or.inr (by omega))
          rw [hc]
          exact htr _ _ _ hb ha
    · by_cases hR : s.i < right ∧ s.i ≤ target ∧ target ≤ right
      · obtain ⟨T', L', e', hsw', hx', hsel⟩ := ih s.x s.i right (by omega) (by omega) (by omega) (by omega)
        refine ⟨T', L ++ L', ?_, hsw.append (hsw'.mono (by omega) (le_refl _)), by rw [runSwaps_append, ← hx, hx'], ?_⟩
        · cases rf <;> simp [hL, hR, e']
        · intro htr
          obtain ⟨h1, h2⟩ := hsel htr
          refine ⟨?_, h2⟩
          intro k hk1 hk2
          by_cases hki : s.i ≤ k
          · exact h1 k hki hk2
          · have ha := hI.lo k hk1 (by omega)
            have hb : P.lt (P.pts (T' target) d) (P.pts (T ((left + right) / 2)) d) = false := by
              rw [hx']
              exact runSwaps_inv hsw' s.x (Q := fun v => P.lt (P.pts v d) (P.pts (T ((left + right) / 2)) d) = false)
                (fun k h1 h2 => hI.hi2 k (by omega) h2) target (by omega) (by omega)
            have hc : T' k = s.x k := by rw [hx']; exact runSwaps_frame hsw' _ (Or.inl (by omega))
            rw [hc]
            exact htr _ _ _ ha hb
      · refine ⟨s.x, L, ?_, hsw, hx, ?_⟩
        · cases rf <;> simp [hL, hR]
        · intro htr
          constructor
          · intro k hk1 hk2
            by_cases hkt : k = target
            · subst hkt; exact hirr _
            · have ha := hI.lo k hk1 (by omega)
              have hb := hI.hi2 target (by omega) ht.2
              exact htr _ _ _ ha hb
          · intro k hk1 hk2
            by_cases hkt : k = target
            · subst hkt; exact hirr _
            · have ha := hI.hi2 k (by omega) hk2
              have hb := hI.lo target ht.1 (by omega)
              exact htr _ _ _ hb ha

/-- Values at positions `a, ..., b - 1`. -/
def seg (T : Nat → Nat) (a b : Nat) : List Nat := (List.range' a (b - a)).map T

theorem seg_nil (T : Nat → Nat) {a b : Nat} (h : b ≤ a) : seg T a b = [] := by
  simp [seg, Nat.sub_eq_zero_of_le h]

theorem seg_single (T : Nat → Nat) (a : Nat) : seg T a (a + 1) = [T a] := by
  simp [seg]

theorem seg_split (T : Nat → Nat) {a b c : Nat} (h1 : a ≤ b) (h2 : b ≤ c) : seg T a c = seg T a b ++ seg T b c := by
  unfold seg
  rw [← List.map_append]
  congr 1
  have := List.range'_append (s := a) (m := b - a) (n := c - b) (step := 1)
  rw [show a + 1 * (b - a) = b by omega] at this
  rw [this]; congr 1; omega

theorem seg_congr {T T' : Nat → Nat} {a b : Nat} (h : ∀ k, a ≤ k → k < b → T' k = T k) : seg T' a b = seg T a b := by
  unfold seg
  apply List.map_congr_left
  intro k hk
  have := List.mem_range'_1.1 hk
  exact h k this.1 (by omega)

theorem seg_swaps {L : List (Nat × Nat)} {a b : Nat} (T : Nat → Nat) (h : SwapsIn a b L) :
    (seg (runSwaps T L) a (b + 1)).Perm (seg T a (b + 1)) := by
  have hmap : seg (runSwaps T L) a (b + 1) = ((List.range' a (b + 1 - a)).map (permOf L)).map T := by
    unfold seg
    rw [List.map_map, runSwaps_eq]
  rw [hmap]
  apply List.Perm.map
  rw [List.perm_ext_iff_of_nodup (List.Nodup.map (permOf L).injective (List.nodup_range' 1)) (List.nodup_range' 1)]
  intro k
  simp only [List.mem_map, List.mem_range'_1]
  constructor
  · rintro ⟨m, hm, rfl⟩
    have := permOf_mem h (k := m) ⟨hm.1, by omega⟩
    omega
  · intro hk
    refine ⟨(permOf L).symm k, ?_, by simp⟩
    by_contra hc
    have h1 : permOf L ((permOf L).symm k) = (permOf L).symm k := permOf_fix h (by omega)
    simp at h1
    omega

/-- A step that inserts exactly the points at positions `[a, b)` and permutes only these positions. -/
def PartSpec (P : PointStore κ) (f : (Nat → Nat) × Links → Option ((Nat → Nat) × Links)) (a b : Nat) : Prop :=
  ∀ T ln t, TreeOK P ln t → t ≠ .nil → (t.idx ++ seg T a b).Nodup → (∀ k ∈ seg T a b, k < P.num) →
    ∃ T' ln' t', f (T, ln) = some (T', ln') ∧ TreeOK P ln' t' ∧ t' ≠ .nil ∧ t'.idx.Perm (t.idx ++ seg T a b) ∧
      (∀ k, k < a ∨ b ≤ k → T' k = T k) ∧ (seg T' a b).Perm (seg T a b)

theorem PartSpec.comp {f g : (Nat → Nat) × Links → Option ((Nat → Nat) × Links)} {a b c e : Nat}
    (hf : PartSpec P f a b) (hg : PartSpec P g c e) (hd : b ≤ c ∨ e ≤ a) (T : Nat → Nat) (ln : Links) (t : KT)
    (h : TreeOK P ln t) (hne : t ≠ .nil) (hnd : (t.idx ++ (seg T a b ++ seg T c e)).Nodup)
    (hb : ∀ k ∈ seg T a b ++ seg T c e, k < P.num) :
    ∃ T' ln' t', (f (T, ln)).bind g = some (T', ln') ∧ TreeOK P ln' t' ∧ t' ≠ .nil ∧
      t'.idx.Perm (t.idx ++ (seg T a b ++ seg T c e)) ∧
      (∀ k, (k < a ∨ b ≤ k) → (k < c ∨ e ≤ k) → T' k = T k) ∧
      (seg T' a b).Perm (seg T a b) ∧ (seg T' c e).Perm (seg T c e) := by
  rw [← List.append_assoc] at hnd
  obtain ⟨T1, ln1, t1, e1, h1, hne1, hp1, hfr1, hs1⟩ := hf T ln t h hne (List.nodup_append.1 hnd).1
    (fun k hk => hb k (List.mem_append_left _ hk))
  have hsame : seg T1 c e = seg T c e := seg_congr (fun k hk1 hk2 => hfr1 k (by omega))
  have hnd1 : (t1.idx ++ seg T1 c e).Nodup := by
    rw [hsame]; exact (hp1.append_right _).nodup_iff.2 hnd
  obtain ⟨T2, ln2, t2, e2, h2, hne2, hp2, hfr2, hs2⟩ := hg T1 ln1 t1 h1 hne1 hnd1
    (fun k hk => hb k (List.mem_append_right _ (by rw [← hsame]; exact hk)))
  refine ⟨T2, ln2, t2, by simp [e1, e2], h2, hne2, ?_, ?_, ?_, by rw [← hsame]; exact hs2⟩
  · rw [← List.append_assoc]
    refine hp2.trans ?_
    rw [hsame]; exact hp1.append_right _
  · intro k hk1 hk2; rw [hfr2 k hk2, hfr1 k hk1]
  · rw [seg_congr (T' := T2) (T := T1) (fun k hk1 hk2 => hfr2 k (by omega))]; exact hs1

theorem KT.ins_ne_nil (s d : Nat) (t : KT) : KT.ins P s d t ≠ .nil := by
  cases t <;> simp only [KT.ins]
  · simp
  · split <;> simp

theorem addTail_part (hD : 0 < P.dim) {pos : Nat} (hpos : pos < P.num) :
    PartSpec P (fun q => (addTail P q.1 pos q.2).map (fun t => (q.1, t))) pos (pos + 1) := by
  intro T ln t h hne hnd hb
  rw [seg_single] at hnd hb ⊢
  have hst : T pos ∉ t.idx := fun hh => (List.nodup_append.1 hnd).2.2 _ hh _ (by simp) rfl
  obtain ⟨ln', e, hok, -⟩ := kdAddPoint_ok hD h hne (hb _ (by simp)) hst
  refine ⟨T, ln', _, by simp [addTail, hpos, e], hok, KT.ins_ne_nil _ _ _, ?_, fun _ _ => rfl, by rw [seg_single]⟩
  exact (KT.ins_idx _ _ _).trans (List.perm_append_comm (l₁ := [T pos]))

theorem nop_part {a b : Nat} (h : b ≤ a) : PartSpec P (fun q => some q) a b := by
  intro T ln t hok hne hnd hb
  exact ⟨T, ln, t, rfl, hok, hne, by simp [seg_nil _ h], fun _ _ => rfl, List.Perm.refl _⟩

theorem balanceQs_spec {rf : Bool} (hD : 0 < P.dim) (hasym : ∀ a b, P.lt a b = true → P.lt b a = false)
    (fuel target left right d : Nat) (T : Nat → Nat) (ln : Links) (t : KT) (hd : d < P.dim)
    (ht : left ≤ target ∧ target ≤ right) (hr : right < P.num) (hf : right < fuel + left)
    (hok : TreeOK P ln t) (hnd : (t.idx ++ seg T left (right + 1)).Nodup)
    (hb : ∀ k ∈ seg T left (right + 1), k < P.num) :
    ∃ T' ln' t', balanceQs P rf fuel target left right d T ln = some (T', ln') ∧ TreeOK P ln' t' ∧ t' ≠ .nil ∧
      t'.idx.Perm (t.idx ++ seg T left (right + 1)) ∧ (∀ k, k < left ∨ right + 1 ≤ k → T' k = T k) ∧
      (seg T' left (right + 1)).Perm (seg T left (right + 1)) := by
  induction fuel generalizing target left right d T ln t with
  | zero => omega
  | succ fuel ih =>
    obtain ⟨T1, L, e1, hsw, hx, -⟩ := adjustTarget_spec (P := P) (rf := rf) (target := target) hd hasym
      (right - left + 1) T left right (by omega) hr ht (by omega)
    have hperm1 : (seg T1 left (right + 1)).Perm (seg T left (right + 1)) := by rw [hx]; exact seg_swaps T hsw
    have hfr1 : ∀ k, k < left ∨ right + 1 ≤ k → T1 k = T k := fun k hk => by
      rw [hx]; exact runSwaps_frame hsw _ (by omega)
    have hsplit : ∀ T : Nat → Nat, seg T left (right + 1) = seg T left target ++ (T target :: seg T (target + 1) (right + 1)) := by
      intro T
      rw [seg_split T ht.1 (by omega : target ≤ right + 1), seg_split T (by omega : target ≤ target + 1) (by omega : target + 1 ≤ right + 1),
        seg_single]; rfl
    have hnd1 : (t.idx ++ seg T1 left (right + 1)).Nodup := (hperm1.append_left _).nodup_iff.2 hnd
    have hb1 : ∀ k ∈ seg T1 left (right + 1), k < P.num := fun k hk => hb k (hperm1.mem_iff.1 hk)
    have hmem : T1 target ∈ seg T1 left (right + 1) := by rw [hsplit]; simp
    obtain ⟨ln1, t1, e2, hok1, hne1, hp1⟩ := addAt_ok hD hok (T := T1) (pos := target) (by omega) (hb1 _ hmem)
      (fun hh => (List.nodup_append.1 hnd1).2.2 _ hh _ hmem rfl)
    have hd' := nextDim_lt hd
    -- parts
    have hleft : PartSpec P (fun q =>
          if target > left + 1 then balanceQs P rf fuel ((left + target - 1) / 2) left (target - 1) (nextDim P.dim d) q.1 q.2
          else if left < target then (addTail P q.1 left q.2).map (fun t => (q.1, t))
          else some q) left target := by
      by_cases hc1 : target > left + 1
      · simp only [hc1, if_true]
        intro T ln t h hne hnd hb
        have hte : target - 1 + 1 = target := by omega
        obtain ⟨T', ln', t', e, h1, h2, h3, h4, h5⟩ := ih ((left + target - 1) / 2) left (target - 1) (nextDim P.dim d) T ln t hd'
          (by omega) (by omega) (by omega) h (by rw [hte]; exact hnd) (by rw [hte]; exact hb)
        rw [hte] at h3 h4 h5
        exact ⟨T', ln', t', e, h1, h2, h3, h4, h5⟩
      · simp only [hc1, if_false]
        by_cases hc2 : left < target
        · simp only [hc2, if_true]
          have : target = left + 1 := by omega
          subst this
          exact addTail_part hD (by omega)
        · simp only [hc2, if_false]
          exact nop_part (by omega)
    have hright : PartSpec P (fun q =>
          if target + 1 < right then balanceQs P rf fuel ((target + 1 + right) / 2) (target + 1) right (nextDim P.dim d) q.1 q.2
          else if right > target then (addTail P q.1 right q.2).map (fun t => (q.1, t))
          else some q) (target + 1) (right + 1) := by
      by_cases hc1 : target + 1 < right
      · simp only [hc1, if_true]
        intro T ln t h hne hnd hb
        exact ih ((target + 1 + right) / 2) (target + 1) right (nextDim P.dim d) T ln t hd'
          (by omega) (by omega) (by omega) h hnd hb
      · simp only [hc1, if_false]
        by_cases hc2 : right > target
        · simp only [hc2, if_true]
          have : right = target + 1 := by omega
          subst this
          exact addTail_part hD (by omega)
        · simp only [hc2, if_false]
          exact nop_part (by omega)
    -- content bookkeeping
    have key : ∀ A B : List Nat, (A ++ B).Perm (seg T1 left target ++ seg T1 (target + 1) (right + 1)) →
        (t1.idx ++ (A ++ B)).Perm (t.idx ++ seg T left (right + 1)) := by
      intro A B hAB
      refine (hAB.append_left _).trans ?_
      refine (hp1.append_right _).trans ?_
      refine List.Perm.trans ?_ (hperm1.append_left _)
      rw [hsplit T1]
      rw [List.cons_append]
      refine List.Perm.trans ?_ (List.Perm.append_left _ List.perm_middle.symm)
      exact List.perm_middle.symm
    have hbA : ∀ k, k ∈ seg T1 left target ∨ k ∈ seg T1 (target + 1) (right + 1) → k < P.num := by
      intro k hk
      refine hb1 k ?_
      rw [hsplit T1]
      rcases hk with hk | hk <;> simp [hk]
    have fin : ∀ T' : Nat → Nat, T' target = T1 target → (seg T' left target).Perm (seg T1 left target) →
        (seg T' (target + 1) (right + 1)).Perm (seg T1 (target + 1) (right + 1)) →
        (seg T' left (right + 1)).Perm (seg T left (right + 1)) := by
      intro T' h0 h1 h2
      refine List.Perm.trans ?_ hperm1
      rw [hsplit T', hsplit T1, h0]
      exact h1.append (h2.cons _)
    cases rf with
    | false =>
      obtain ⟨T', ln', t', e, g1, g2, g3, g4, g5, g6⟩ := hleft.comp hright (Or.inl (by omega)) T1 ln1 t1 hok1 hne1
        ((key _ _ (List.Perm.refl _)).nodup_iff.2 hnd) (fun k hk => hbA k (List.mem_append.1 hk))
      refine ⟨T', ln', t', ?_, g1, g2, g3.trans (key _ _ (List.Perm.refl _)), ?_, fin T' (g4 _ (by omega) (by omega)) g5 g6⟩
      · rw [balanceQs]; simp only [e1, e2]; exact e
      · intro k hk; rw [g4 k (by omega) (by omega), hfr1 k hk]
    | true =>
      obtain ⟨T', ln', t', e, g1, g2, g3, g4, g5, g6⟩ := hright.comp hleft (Or.inr (by omega)) T1 ln1 t1 hok1 hne1
        ((key _ _ List.perm_append_comm).nodup_iff.2 hnd) (fun k hk => hbA k (List.mem_append.1 hk).symm)
      refine ⟨T', ln', t', ?_, g1, g2, g3.trans (key _ _ List.perm_append_comm), ?_, fin T' (g4 _ (by omega) (by omega)) g6 g5⟩
      · rw [balanceQs]; simp only [e1, e2]; exact e
      · intro k hk; rw [g4 k (by omega) (by omega), hfr1 k hk]

theorem buildBalanced_spec (rf : Bool) (hD : 0 < P.dim) (hn : 0 < P.num)
    (hasym : ∀ a b, P.lt a b = true → P.lt b a = false) :
    ∃ ln t, buildBalanced P rf = some ln ∧ TreeOK P ln t ∧ t ≠ .nil ∧ t.idx.Perm (List.range P.num) := by
  have hseg : seg (fun i => i) 0 (P.num - 1 + 1) = List.range P.num := by
    unfold seg
    rw [List.range_eq_range', show P.num - 1 + 1 - 0 = P.num by omega]
    exact List.map_id _
  obtain ⟨T', ln, t, e, h1, h2, h3, -, -⟩ := balanceQs_spec (rf := rf) hD hasym P.num (P.num / 2) 0 (P.num - 1) 0 (fun i => i)
    { left := fun i => i, right := fun i => i, origin := none, height := 0 } .nil hD (by omega) (by omega) (by omega)
    ⟨Or.inl ⟨rfl, rfl⟩, by simp [KT.idx], by simp [KT.idx], fun _ _ _ => ⟨rfl, rfl⟩, by simp [Ordered]⟩
    (by rw [hseg]; simpa [KT.idx] using List.nodup_range) (by rw [hseg]; intro k hk; exact List.mem_range.1 hk)
  refine ⟨ln, t, by simp [buildBalanced, Nat.pos_iff_ne_zero.1 hn, e], h1, h2, ?_⟩
  rw [hseg] at h3; simpa [KT.idx] using h3

/-! ## Histories of `add_tree_point` -/

theorem TreeOK.congr {P Q : PointStore κ} {ln : Links} {t : KT} (h : TreeOK P ln t) (hd : Q.dim = P.dim) (hlt : Q.lt = P.lt)
    (hnum : P.num ≤ Q.num) (hpts : ∀ k, k < P.num → Q.pts k = P.pts k)
    (hfresh : ∀ k, P.num ≤ k → k < Q.num → ln.left k = k ∧ ln.right k = k) : TreeOK Q ln t := by
  have hord : ∀ (t : KT) d, (∀ k ∈ t.idx, k < P.num) → Ordered P d t → Ordered Q d t := by
    intro t
    induction t with
    | nil => intro d _ _; simp [Ordered]
    | node i l r ihl ihr =>
      intro d hv ho
      simp only [Ordered] at ho ⊢
      have hi := hv i (by simp [KT.idx])
      refine ⟨?_, ?_, ?_, ?_⟩
      · intro j hj
        rw [hlt, hpts i hi, hpts j (hv j (by simp [KT.idx, hj]))]; exact ho.1 j hj
      · intro j hj
        rw [hlt, hpts i hi, hpts j (hv j (by simp [KT.idx, hj]))]; exact ho.2.1 j hj
      · rw [hd]; exact ihl _ (fun k hk => hv k (by simp [KT.idx, hk])) ho.2.2.1
      · rw [hd]; exact ihr _ (fun k hk => hv k (by simp [KT.idx, hk])) ho.2.2.2
  refine ⟨h.root, h.nodup, fun k hk => lt_of_lt_of_le (h.valid k hk) hnum, ?_, hord t 0 h.valid h.ordered⟩
  intro k hk hkt
  by_cases hkp : k < P.num
  · exact h.fresh k hkp hkt
  · exact hfresh k (by omega) hk

/-- Invariant of a tree built by `add_tree_point` from the points `xs`. -/
structure SmartTree.Inv (lt : κ → κ → Bool) (dim : Nat) (xs : List (Nat → κ)) (st : SmartTree κ) : Prop where
  num : st.num = xs.length
  cap : st.num = 0 ∨ st.num < st.cap
  pts : ∀ k (hk : k < xs.length), st.pts k = xs[k]
  tree : ∃ t, (st.num ≠ 0 → TreeOK { pts := st.pts, num := st.num, dim := dim, lt := lt } st.links t) ∧ t.idx.Perm (List.range st.num)

theorem addTreePoint_inv {lt : κ → κ → Bool} {dim : Nat} {rb : Nat → Nat → Bool} (hD : 0 < dim)
    (hasym : ∀ a b, lt a b = true → lt b a = false) {xs : List (Nat → κ)} {st : SmartTree κ}
    (h : st.Inv lt dim xs) (x : Nat → κ) :
    ∃ st', addTreePoint lt dim rb st x = some st' ∧ st'.Inv lt dim (xs ++ [x]) := by
  have hpts' : ∀ k (hk : k < (xs ++ [x]).length), upd st.pts st.num x k = (xs ++ [x])[k] := by
    intro k hk
    by_cases hkn : k = st.num
    · subst hkn; simp [upd, h.num]
    · have : k < xs.length := by simp at hk; have := h.num; omega
      simp [upd, hkn, List.getElem_append_left this, h.pts k this]
  by_cases h0 : st.num = 0
  · have hx0 : xs = [] := by have := h.num; rw [h0] at this; exact List.eq_nil_of_length_eq_zero this.symm
    subst hx0
    refine ⟨_, by simp only [addTreePoint, h0, if_true]; rfl, ⟨rfl, Or.inr (by show 1 < 100; decide), ?_, ?_⟩⟩
    · rw [h0] at hpts'; exact hpts'
    · refine ⟨.node 0 .nil .nil, ?_, by simp [KT.idx]⟩
      intro _
      refine ⟨Or.inr ⟨0, rfl, by simp [Rep, upd]⟩, by simp [KT.idx], by simp [KT.idx], ?_, by simp [Ordered, KT.idx]⟩
      intro k hk hkt
      have hk : k < 1 := hk
      have : k = 0 := by omega
      simp [KT.idx, this] at hkt
  · obtain ⟨t, hok, hperm⟩ := h.tree
    have hok := hok h0
    have hcap : st.num < st.cap := h.cap.resolve_left h0
    set P : PointStore κ := { pts := upd st.pts st.num x, num := st.num + 1, dim := dim, lt := lt } with hP
    set ln : Links := { st.links with left := upd st.links.left st.num st.num, right := upd st.links.right st.num st.num } with hln
    have hne : t ≠ .nil := by
      rintro rfl
      have := hperm.length_eq
      simp [KT.idx] at this; omega
    have hnt : st.num ∉ t.idx := fun hh => by have := hperm.mem_iff.1 hh; simp at this
    have hln' : TreeOK P ln t := by
      have hbase : TreeOK { pts := st.pts, num := st.num, dim := dim, lt := lt } ln t := by
        refine ⟨?_, hok.nodup, hok.valid, ?_, hok.ordered⟩
        · rcases hok.root with h1 | ⟨o, h1, h2⟩
          · exact Or.inl h1
          · refine Or.inr ⟨o, h1, h2.congr ?_⟩
            intro k hk
            have : k ≠ st.num := fun e => hnt (e ▸ hk)
            simp [hln, upd, this]
        · intro k hk hkt
          have hk : k < st.num := hk
          have := hok.fresh k hk hkt
          simp [hln, upd, Nat.ne_of_lt hk, this]
      refine hbase.congr rfl rfl (by show st.num ≤ st.num + 1; omega) ?_ ?_
      · intro k hk
        have hk : k < st.num := hk
        simp [hP, upd, Nat.ne_of_lt hk]
      · intro k hk1 hk2
        have hk1 : st.num ≤ k := hk1
        have hk2 : k < st.num + 1 := hk2
        have : k = st.num := by omega
        subst this; simp [hln, upd]
    obtain ⟨ln2, e2, hok2, -⟩ := kdAddPoint_ok (P := P) hD hln' hne (s := st.num) (by show st.num < st.num + 1; omega) hnt
    have hperm2 : (KT.ins P st.num 0 t).idx.Perm (List.range (st.num + 1)) := by
      refine (KT.ins_idx _ _ _).trans ?_
      rw [List.range_succ]
      exact (hperm.cons _).trans (List.perm_append_comm (l₁ := [st.num]))
    have hnum' : st.num + 1 = (xs ++ [x]).length := by simp [h.num]
    have hcap' : st.num + 1 < (if st.num + 1 = st.cap then st.cap * 2 else st.cap) := by split <;> omega
    by_cases hrb : rb ln2.height (st.num + 1) = true
    · obtain ⟨ln3, t3, e3, hok3, -, hp3⟩ := buildBalanced_spec (P := P) false hD (by show 0 < st.num + 1; omega) hasym
      refine ⟨_, by simp only [addTreePoint, h0, if_false, hcap, if_true, ← hP, ← hln, e2, hrb, e3, Option.map]; rfl, hnum', Or.inr hcap', hpts', t3, fun _ => hok3, hp3⟩
    · refine ⟨_, by simp only [addTreePoint, h0, if_false, hcap, if_true, ← hP, ← hln, e2, hrb]; rfl, hnum', Or.inr hcap', hpts', _, fun _ => hok2, hperm2⟩

theorem addTreePoints_inv {lt : κ → κ → Bool} {dim : Nat} {rb : Nat → Nat → Bool} (hD : 0 < dim)
    (hasym : ∀ a b, lt a b = true → lt b a = false) (ys : List (Nat → κ)) {xs : List (Nat → κ)} {st : SmartTree κ}
    (h : st.Inv lt dim xs) :
    ∃ st', addTreePoints lt dim rb ys st = some st' ∧ st'.Inv lt dim (xs ++ ys) := by
  induction ys generalizing xs st with
  | nil => exact ⟨st, rfl, by simpa using h⟩
  | cons y ys ih =>
    obtain ⟨st1, e1, h1⟩ := addTreePoint_inv (rb := rb) hD hasym h y
    obtain ⟨st2, e2, h2⟩ := ih h1
    exact ⟨st2, by simp [addTreePoints, e1, e2], by simpa using h2⟩

theorem SmartTree.empty_inv {lt : κ → κ → Bool} {dim : Nat} (pts : Nat → Nat → κ) (l r : Nat → Nat) :
    (SmartTree.empty pts l r).Inv lt dim [] :=
  ⟨rfl, Or.inl rfl, fun k hk => by simp at hk, .nil, fun h => absurd rfl h, by simp [KT.idx, SmartTree.empty]⟩

end

end VoroCrust
