import Verif.Model.SpokesMemory
import Verif.Props.TreeMemory

/-!
# Properties of the memory of a surrogate (C131)
-/

namespace VoroCrust

/-- The blocks that are allocated are those the surrogate will free and those of others. -/
def SpokeOwned (base : List Nat) (S : SpokeMem) : Prop := ∀ a, S.live.count a = (spokeBlocks S).count a + base.count a

/-- The cells from number `n` on have no values yet. -/
def EmptyFrom (n : Nat) (S : SpokeMem) : Prop := ∀ j c, n ≤ j → S.cells[j]? = some c → c.f = none ∧ c.sample = none

theorem count_flatMap_set {α : Type} (g : α → List Nat) (x y : α) (a : Nat) : ∀ (l : List α) (i : Nat), l[i]? = some y → ((l.set i x).flatMap g).count a + (g y).count a = (l.flatMap g).count a + (g x).count a := by
  intro l
  induction l with
  | nil => intro i h; simp at h
  | cons b l ih =>
    intro i h
    cases i with
    | zero =>
      simp only [List.getElem?_cons_zero, Option.some.injEq] at h
      subst h
      simp only [List.set_cons_zero, List.flatMap_cons, List.count_append]
      omega
    | succ i =>
      simp only [List.getElem?_cons_succ] at h
      have := ih i h
      simp only [List.set_cons_succ, List.flatMap_cons, List.count_append]
      omega

theorem flatMap_replicate_empty (n : Nat) : (List.replicate n emptyCell).flatMap cellBlocks = [] := by
  induction n with
  | zero => rfl
  | succ n ih => rw [List.replicate_succ, List.flatMap_cons, ih]; rfl

theorem freshIds_add (n j k : Nat) : freshIds n (j + k) = freshIds n j ++ freshIds (n + j) k := by
  unfold freshIds
  rw [List.range_add, List.map_append, List.map_map]
  congr 1
  apply List.map_congr_left
  intro x _
  show n + (j + x) = n + j + x
  omega

theorem initSpokes_owned (base : List Nat) (budget threads : Nat) (ad : Bool) (next : Nat) : SpokeOwned base (initSpokes budget threads ad (newSpokes next base)) ∧ EmptyFrom 0 (initSpokes budget threads ad (newSpokes next base)) := by
  refine ⟨fun a => ?_, fun j c _ h => ?_⟩
  · simp only [initSpokes, spokeBlocks, newSpokes, freshIds_add, flatMap_replicate_empty, List.count_append, List.count_nil]
    simp only [Nat.add_assoc]
    omega
  · simp only [initSpokes] at h
    rw [List.getElem?_replicate] at h
    split_ifs at h
    cases h
    exact ⟨rfl, rfl⟩

theorem setValues_owned (base : List Nat) (i : Nat) (w : Bool) (S : SpokeMem) (c : SpokeCell) (hc : S.cells[i]? = some c) (hs : w = true → c.sample = none) (ho : SpokeOwned base S) :
    ∃ S', setValues i w S = some S' ∧ SpokeOwned (c.f.toList ++ base) S' ∧ S'.cells = S.cells.set i { c with f := some S.next, sample := if w then some (S.next + 1) else c.sample } ∧ S'.num = S.num ∧ S'.adaptive = S.adaptive ∧ S'.samplers = S.samplers := by
  unfold setValues
  rw [hc]
  refine ⟨_, rfl, fun a => ?_, rfl, rfl, rfl, rfl⟩
  have h1 := ho a
  have h2 := count_flatMap_set cellBlocks { c with f := some S.next, sample := if w then some (S.next + 1) else c.sample } c a S.cells i hc
  simp only [spokeBlocks, List.count_append] at h1 ⊢
  cases w with
  | true =>
    have := hs rfl
    simp only [cellBlocks, this, List.count_append, if_true, List.count_cons, List.count_nil, Option.toList_some, Option.toList_none] at h2 ⊢
    omega
  | false =>
    simp only [cellBlocks, List.count_append, Bool.false_eq_true, if_false, List.count_cons, List.count_nil, Option.toList_some] at h2 ⊢
    omega

theorem buildCell_owned (base : List Nat) (i : Nat) (ks : List Bool) (S : SpokeMem) (c : SpokeCell) (hc : S.cells[i]? = some c) (ho : SpokeOwned base S) :
    ∃ S' c', buildCell i ks S = some S' ∧ SpokeOwned base S' ∧ S'.cells = S.cells.set i c' ∧ c'.f = c.f ∧ c'.sample = c.sample ∧ S'.num = S.num ∧ S'.adaptive = S.adaptive ∧ S'.samplers = S.samplers := by
  obtain ⟨f, order, sample, coef⟩ := c
  have key : ∀ old : List Nat, (∀ a, old.count a ≤ (cellBlocks ⟨f, order, sample, coef⟩).count a) → ∃ r, freeBlocks old S.live = some r ∧ ∀ a, r.count a = S.live.count a - old.count a := by
    intro old hold
    refine freeBlocks_ok old S.live fun a => ?_
    have h1 := ho a
    have h2 := hold a
    have h3 := count_flatMap_set cellBlocks emptyCell ⟨f, order, sample, coef⟩ a S.cells i hc
    have h4 : (cellBlocks emptyCell).count a = 0 := rfl
    simp only [spokeBlocks, List.count_append] at h1
    omega
  unfold buildCell
  rw [hc]
  cases coef with
  | none =>
    obtain ⟨r, k1, k2⟩ := key [] (fun a => by simp)
    simp only [k1]
    refine ⟨_, _, rfl, fun a => ?_, rfl, rfl, rfl, rfl, rfl, rfl⟩
    have h1 := ho a
    have h2 := k2 a
    have h3 := count_flatMap_set cellBlocks ⟨f, some (order.getD S.next), sample, some (S.next + 1, newCoefs (S.next + 2) ks)⟩ ⟨f, order, sample, none⟩ a S.cells i hc
    cases order <;> simp only [spokeBlocks, cellBlocks, List.count_append, List.count_cons, List.count_nil, Option.toList_some, Option.toList_none, Option.getD_some, Option.getD_none] at h1 h2 h3 ⊢ <;> omega
  | some p =>
    obtain ⟨b, l⟩ := p
    obtain ⟨r, k1, k2⟩ := key l.reduceOption (fun a => by simp only [cellBlocks, List.count_append, List.count_cons]; omega)
    simp only [k1]
    refine ⟨_, _, rfl, fun a => ?_, rfl, rfl, rfl, rfl, rfl, rfl⟩
    have h1 := ho a
    have h2 := k2 a
    have h3 := count_flatMap_set cellBlocks ⟨f, some (order.getD S.next), sample, some (b, newCoefs (S.next + 2) ks)⟩ ⟨f, order, sample, some (b, l)⟩ a S.cells i hc
    have h4 := count_flatMap_set cellBlocks emptyCell ⟨f, order, sample, some (b, l)⟩ a S.cells i hc
    have h5 : (cellBlocks emptyCell).count a = 0 := rfl
    cases order <;> simp only [spokeBlocks, cellBlocks, List.count_append, List.count_cons, List.count_nil, Option.toList_some, Option.toList_none, Option.getD_some, Option.getD_none] at h1 h2 h3 h4 h5 ⊢ <;> omega

/-- What building models keeps. -/
def SameValues (S S' : SpokeMem) : Prop :=
  S'.cells.length = S.cells.length ∧ (∀ (j : Nat) (c' : SpokeCell), S'.cells[j]? = some c' → ∃ c : SpokeCell, S.cells[j]? = some c ∧ c'.f = c.f ∧ c'.sample = c.sample) ∧ S'.num = S.num ∧ S'.adaptive = S.adaptive ∧ S'.samplers = S.samplers

theorem sameValues_refl (S : SpokeMem) : SameValues S S := ⟨rfl, fun _ c h => ⟨c, h, rfl, rfl⟩, rfl, rfl, rfl⟩

theorem sameValues_trans {S T U : SpokeMem} (h1 : SameValues S T) (h2 : SameValues T U) : SameValues S U := by
  refine ⟨h2.1.trans h1.1, fun j c h => ?_, h2.2.2.1.trans h1.2.2.1, h2.2.2.2.1.trans h1.2.2.2.1, h2.2.2.2.2.trans h1.2.2.2.2⟩
  obtain ⟨c1, q1, q2, q3⟩ := h2.2.1 j c h
  obtain ⟨c2, p1, p2, p3⟩ := h1.2.1 j c1 q1
  exact ⟨c2, p1, q2.trans p2, q3.trans p3⟩

theorem sameValues_empty {S T : SpokeMem} (h : SameValues S T) (n : Nat) (he : EmptyFrom n S) : EmptyFrom n T := by
  intro j c hj hc
  obtain ⟨d, h1, h2, h3⟩ := h.2.1 j c hc
  obtain ⟨e1, e2⟩ := he j d hj h1
  exact ⟨h2.trans e1, h3.trans e2⟩

theorem buildCells_owned (base : List Nat) : ∀ (upd : List (Nat × List Bool)) (S : SpokeMem), (∀ u ∈ upd, u.1 < S.cells.length) → SpokeOwned base S → ∃ S', buildCells upd S = some S' ∧ SpokeOwned base S' ∧ SameValues S S' := by
  intro upd
  induction upd with
  | nil => intro S _ ho; exact ⟨S, rfl, ho, sameValues_refl S⟩
  | cons u upd ih =>
    intro S hu ho
    obtain ⟨i, ks⟩ := u
    have hi : i < S.cells.length := hu (i, ks) (by simp)
    obtain ⟨T, c', h1, h2, h3, h4, h5, h6, h7, h8⟩ := buildCell_owned base i ks S _ (List.getElem?_eq_getElem hi) ho
    have hsv : SameValues S T := by
      refine ⟨by rw [h3, List.length_set], fun j c hc => ?_, h6, h7, h8⟩
      rw [h3, List.getElem?_set] at hc
      split_ifs at hc with hij
      · subst hij
        cases hc
        exact ⟨_, List.getElem?_eq_getElem hi, h4, h5⟩
      · exact ⟨c, hc, rfl, rfl⟩
    obtain ⟨U, k1, k2, k3⟩ := ih T (fun u hu' => by rw [hsv.1]; exact hu u (List.mem_cons_of_mem _ hu')) h2
    refine ⟨U, ?_, k2, sameValues_trans hsv k3⟩
    unfold buildCells
    rw [h1]
    exact k1

theorem expandSpokes_owned (base : List Nat) (S : SpokeMem) (ho : SpokeOwned base S) : ∃ S', expandSpokes S = some S' ∧ SpokeOwned base S' ∧ S'.cells = S.cells ++ List.replicate S.cells.length emptyCell ∧ S'.num = S.num ∧ S'.adaptive = S.adaptive ∧ S'.samplers = S.samplers := by
  obtain ⟨r, k1, k2⟩ := freeBlocks_ok S.arrays (freshIds S.next S.arrays.length ++ S.live) (fun a => by
    have := ho a
    simp only [spokeBlocks, List.count_append] at this ⊢
    omega)
  unfold expandSpokes
  rw [k1]
  refine ⟨_, rfl, fun a => ?_, rfl, rfl, rfl, rfl⟩
  have h1 := ho a
  have h2 := k2 a
  simp only [spokeBlocks, List.flatMap_append, flatMap_replicate_empty, List.count_append, List.count_nil] at h1 h2 ⊢
  omega

theorem addSeedMem_owned (base : List Nat) (upd : List (Nat × List Bool)) (S : SpokeMem) (hu : ∀ u ∈ upd, u.1 ≤ S.num) (hn : S.num < S.cells.length) (he : EmptyFrom S.num S) (ho : SpokeOwned base S) :
    ∃ S', addSeedMem upd S = some S' ∧ SpokeOwned base S' ∧ EmptyFrom S'.num S' ∧ S'.num = S.num + 1 ∧ S'.num < S'.cells.length ∧ S'.samplers = S.samplers := by
  have hc := List.getElem?_eq_getElem hn
  obtain ⟨ef, es⟩ := he S.num _ (Nat.le_refl _) hc
  obtain ⟨S1, a1, a2, a3, a4, a5, a6⟩ := setValues_owned base S.num S.adaptive S _ hc (fun _ => es) ho
  rw [ef] at a2
  have a2 : SpokeOwned base S1 := a2
  have l1 : S1.cells.length = S.cells.length := by rw [a3, List.length_set]
  have e1 : EmptyFrom (S.num + 1) S1 := by
    intro j c hj hc'
    rw [a3, List.getElem?_set_ne (by omega)] at hc'
    exact he j c (by omega) hc'
  obtain ⟨S2, b1, b2, b3⟩ := buildCells_owned base upd S1 (fun u h => by have := hu u h; omega) a2
  have e2 := sameValues_empty b3 _ e1
  have n2 : S2.num = S.num := b3.2.2.1.trans a4
  have l2 : S2.cells.length = S.cells.length := b3.1.trans l1
  have s2 : S2.samplers = S.samplers := b3.2.2.2.2.trans a6
  unfold addSeedMem
  rw [a1]
  simp only [b1]
  by_cases hfull : S2.num + 1 = S2.cells.length
  · rw [if_pos hfull]
    obtain ⟨S', c1, c2, c3, c4, c5, c6⟩ := expandSpokes_owned base { S2 with num := S2.num + 1 } b2
    have c4 : S'.num = S2.num + 1 := c4
    refine ⟨S', c1, c2, ?_, by omega, ?_, c6.trans s2⟩
    · intro j c hj hc'
      rw [c4] at hj
      rw [c3] at hc'
      simp only at hc'
      rw [List.getElem?_append_right (by omega), List.getElem?_replicate] at hc'
      split_ifs at hc'
      cases hc'
      exact ⟨rfl, rfl⟩
    · rw [c3, c4]
      simp only [List.length_append, List.length_replicate]
      omega
  · rw [if_neg hfull]
    refine ⟨_, rfl, b2, ?_, by simp only; omega, by simp only; omega, s2⟩
    intro j c hj hc'
    exact e2 j c (by simp only at hj; omega) hc'

/-- Calls of `add_new_seed` from `n` seeds on, which build the models of cells that have a seed. -/
def SeedCalls : Nat → List (List (Nat × List Bool)) → Prop
  | _, [] => True
  | n, upd :: l => (∀ u ∈ upd, u.1 ≤ n) ∧ SeedCalls (n + 1) l

theorem seeds_owned (base : List Nat) : ∀ (us : List (List (Nat × List Bool))) (S : SpokeMem), SeedCalls S.num us → S.num < S.cells.length → EmptyFrom S.num S → SpokeOwned base S →
    ∃ S', spokeOps (us.map SpokeOp.seed) S = some S' ∧ SpokeOwned base S' ∧ S'.num = S.num + us.length ∧ S'.samplers = S.samplers := by
  intro us
  induction us with
  | nil => intro S _ _ _ ho; exact ⟨S, rfl, ho, rfl, rfl⟩
  | cons upd us ih =>
    intro S hs hn he ho
    obtain ⟨T, h1, h2, h3, h4, h5, h6⟩ := addSeedMem_owned base upd S hs.1 hn he ho
    obtain ⟨U, k1, k2, k3, k4⟩ := ih T (h4 ▸ hs.2) h5 h3 h2
    refine ⟨U, ?_, k2, by simp only [List.length_cons]; omega, k4.trans h6⟩
    unfold spokeOps
    simp only [spokeOp, h1, List.map_cons]
    exact k1

theorem spokeOps_append (os1 os2 : List SpokeOp) : ∀ S : SpokeMem, spokeOps (os1 ++ os2) S = (spokeOps os1 S).bind (spokeOps os2) := by
  induction os1 with
  | nil => intro S; rfl
  | cons o os1 ih =>
    intro S
    show (match spokeOp o S with | none => none | some S' => spokeOps (os1 ++ os2) S') = (match spokeOp o S with | none => none | some S' => spokeOps os1 S').bind (spokeOps os2)
    cases spokeOp o S with
    | none => rfl
    | some S' => exact ih S'

theorem clearSpokes_owned (base : List Nat) (S : SpokeMem) (ho : SpokeOwned base S) : ∃ S', clearSpokes S = some S' ∧ (∀ a, S'.live.count a = base.count a) ∧ S'.cells = [] ∧ S'.samplers = S.samplers ∧ S'.num = S.num := by
  obtain ⟨r, h1, h2⟩ := freeBlocks_ok (spokeBlocks S) S.live (fun a => by have := ho a; omega)
  unfold clearSpokes
  rw [h1]
  exact ⟨_, rfl, fun a => by have := ho a; have := h2 a; simp only; omega, rfl, rfl, rfl⟩

theorem life_of_owned (base : List Nat) (budget threads : Nat) (ad : Bool) (os : List SpokeOp) (next : Nat) (live : List Nat) (S : SpokeMem) (h : spokeOps os (initSpokes budget threads ad (newSpokes next live)) = some S) (ho : SpokeOwned base S) :
    ∃ rest, spokeLife budget threads ad os next live = some rest ∧ rest.Perm base := by
  obtain ⟨T, k1, k2, _⟩ := clearSpokes_owned base S ho
  refine ⟨T.live, ?_, List.perm_iff_count.2 k2⟩
  unfold spokeLife
  rw [h]
  simp only [k1, Option.map_some]

/-! ## C131 -/

/-- **C131 (a).** A surrogate that is set up once and to which seeds are added one by one, any number of them and with any models built: no write goes past an array, nothing is freed twice, and after the destructor exactly the blocks of
others are allocated. -/
theorem C131_life_partial (budget threads : Nat) (ad : Bool) (next : Nat) (base : List Nat) (hb : 0 < budget) (us : List (List (Nat × List Bool))) (hus : SeedCalls 0 us) :
    ∃ rest, spokeLife budget threads ad (us.map SpokeOp.seed) next base = some rest ∧ rest.Perm base := by
  obtain ⟨ho, he⟩ := initSpokes_owned base budget threads ad next
  obtain ⟨S, h1, h2, _⟩ := seeds_owned base us _ hus (by simpa [initSpokes, newSpokes] using hb) he ho
  exact life_of_owned base budget threads ad _ next base S h1 h2

theorem sampleValues_ok (base : List Nat) : ∀ (l : List Nat) (S : SpokeMem), l.Nodup → (∀ i ∈ l, i < S.cells.length) → SpokeOwned base S →
    ∃ S', sampleValues l S = some S' ∧ SpokeOwned (l.flatMap (fun i => ((S.cells[i]?.bind fun c => c.f)).toList) ++ base) S' ∧ S'.cells.length = S.cells.length ∧ S'.samplers = S.samplers ∧
      (∀ j, j ∉ l → S'.cells[j]? = S.cells[j]?) ∧ ∀ j ∈ l, ∃ c, S'.cells[j]? = some c ∧ c.f.isSome := by
  intro l
  induction l generalizing base with
  | nil => intro S _ _ ho; exact ⟨S, rfl, ho, rfl, rfl, fun _ _ => rfl, by simp⟩
  | cons i l ih =>
    intro S hnd hl ho
    have hi := hl i (by simp)
    have hc := List.getElem?_eq_getElem hi
    obtain ⟨T, a1, a2, a3, _, _, a6⟩ := setValues_owned base i false S _ hc (by simp) ho
    have hlen : T.cells.length = S.cells.length := by rw [a3, List.length_set]
    have hnd' := List.nodup_cons.1 hnd
    obtain ⟨U, b1, b2, b3, b4, b5, b6⟩ := ih _ T hnd'.2 (fun j hj => by rw [hlen]; exact hl j (List.mem_cons_of_mem _ hj)) a2
    have hne : ∀ j, j ≠ i → T.cells[j]? = S.cells[j]? := fun j hj => by rw [a3, List.getElem?_set_ne (fun q => hj q.symm)]
    refine ⟨U, ?_, ?_, b3.trans hlen, b4.trans a6, fun j hj => ?_, fun j hj => ?_⟩
    · unfold sampleValues
      rw [a1]
      exact b1
    · intro a
      rw [b2 a]
      have hq : l.flatMap (fun i => ((T.cells[i]?.bind fun c => c.f)).toList) = l.flatMap (fun i => ((S.cells[i]?.bind fun c => c.f)).toList) := by
        apply List.flatMap_congr
        intro j hj
        rw [hne j (fun q => hnd'.1 (q ▸ hj))]
      rw [hq]
      simp only [List.flatMap_cons, hc, List.count_append, Option.bind_some]
      omega
    · rw [b5 j (fun q => hj (List.mem_cons_of_mem _ q)), hne j (fun q => hj (by rw [q]; simp))]
    · by_cases hjl : j ∈ l
      · exact b6 j hjl
      · have hji : j = i := by
          rcases List.mem_cons.1 hj with q | q
          · exact q
          · exact absurd q hjl
        subst hji
        refine ⟨{ S.cells[j] with f := some S.next, sample := if false = true then some (S.next + 1) else S.cells[j].sample }, ?_, rfl⟩
        rw [b5 j hjl, a3, List.getElem?_set_self hi]

theorem addSamplesMem_ok (base : List Nat) (m : Nat) (ks : Nat → List Bool) (S : SpokeMem) (hm : m ≤ S.cells.length) (ho : SpokeOwned base S) :
    ∃ S', addSamplesMem m ks S = some S' ∧ SpokeOwned ((List.range m).flatMap (fun i => ((S.cells[i]?.bind fun c => c.f)).toList) ++ base) S' ∧ S'.cells.length = S.cells.length ∧ S'.num = m ∧ S'.samplers = S.samplers ∧
      (EmptyFrom m S → EmptyFrom m S') ∧ ∀ j, j < m → ∃ c, S'.cells[j]? = some c ∧ c.f.isSome := by
  obtain ⟨T, a1, a2, a3, a4, a5, a6⟩ := sampleValues_ok base (List.range m) S List.nodup_range (fun i hi => by have := List.mem_range.1 hi; omega) ho
  obtain ⟨U, b1, b2, b3⟩ := buildCells_owned _ ((List.range m).map fun i => (i, ks i)) T (fun u hu => by
    obtain ⟨i, hi, rfl⟩ := List.mem_map.1 hu
    have := List.mem_range.1 hi
    simp only
    omega) a2
  unfold addSamplesMem
  rw [a1]
  simp only [b1]
  refine ⟨_, rfl, b2, b3.1.trans a3, rfl, b3.2.2.2.2.trans a4, fun he => ?_, fun j hj => ?_⟩
  · have : EmptyFrom m T := fun j c hj hc => by
      rw [a5 j (fun q => by have := List.mem_range.1 q; omega)] at hc
      exact he j c hj hc
    exact sameValues_empty b3 m this
  · have hlt : j < U.cells.length := by rw [b3.1, a3]; omega
    obtain ⟨d, d1, d2, _⟩ := b3.2.1 j _ (List.getElem?_eq_getElem hlt)
    obtain ⟨c, c1, c2⟩ := a6 j (List.mem_range.2 hj)
    rw [c1] at d1
    cases d1
    exact ⟨_, List.getElem?_eq_getElem hlt, d2 ▸ c2⟩

/-- **C131 (b).** The same where the first seeds come in one call of `add_samples` and leave room in the arrays. -/
theorem C131_samples_partial (budget threads : Nat) (ad : Bool) (next : Nat) (base : List Nat) (m : Nat) (hm : m < budget) (ks : Nat → List Bool) (us : List (List (Nat × List Bool))) (hus : SeedCalls m us) :
    ∃ rest, spokeLife budget threads ad (SpokeOp.samples m ks :: us.map SpokeOp.seed) next base = some rest ∧ rest.Perm base := by
  obtain ⟨ho, he⟩ := initSpokes_owned base budget threads ad next
  have hlen : (initSpokes budget threads ad (newSpokes next base)).cells.length = budget := by simp [initSpokes]
  obtain ⟨T, a1, a2, a3, a4, _, a6, _⟩ := addSamplesMem_ok base m ks _ (by rw [hlen]; omega) ho
  have hnil : (List.range m).flatMap (fun i => (((initSpokes budget threads ad (newSpokes next base)).cells[i]?.bind fun c => c.f)).toList) = [] := by
    rw [List.flatMap_eq_nil_iff]
    intro i _
    cases hc : (initSpokes budget threads ad (newSpokes next base)).cells[i]? with
    | none => rfl
    | some c => rw [Option.bind_some, (he i c (Nat.zero_le _) hc).1]; rfl
  rw [hnil] at a2
  have a2 : SpokeOwned base T := a2
  obtain ⟨S, h1, h2, _⟩ := seeds_owned base us T (a4.symm ▸ hus) (by omega) (a4.symm ▸ a6 fun j c _ hc => he j c (Nat.zero_le _) hc) a2
  refine life_of_owned base budget threads ad _ next base S ?_ h2
  unfold spokeOps
  simp only [spokeOp, a1]
  exact h1

theorem sampleValues_over : ∀ (l : List Nat) (S : SpokeMem) (i : Nat), i ∈ l → S.cells.length ≤ i → sampleValues l S = none := by
  intro l
  induction l with
  | nil => intro S i h; simp at h
  | cons j l ih =>
    intro S i h hi
    unfold sampleValues setValues
    cases hc : S.cells[j]? with
    | none => rfl
    | some c =>
      simp only
      rcases List.mem_cons.1 h with rfl | h
      · rw [List.getElem?_eq_none hi] at hc; cases hc
      · exact ih _ i h (by simpa using hi)

/-- **C131 (c).** `add_samples` with more samples than the arrays have room for writes past them; with as many as there is room for, the next `add_new_seed` does. -/
theorem C131_full_undefined (budget threads : Nat) (ad : Bool) (next : Nat) (base : List Nat) (m : Nat) (ks : Nat → List Bool) (upd : List (Nat × List Bool)) (os : List SpokeOp) :
    (budget < m → spokeLife budget threads ad (SpokeOp.samples m ks :: os) next base = none) ∧ spokeLife budget threads ad (SpokeOp.samples budget ks :: SpokeOp.seed upd :: os) next base = none := by
  have hlen : (initSpokes budget threads ad (newSpokes next base)).cells.length = budget := by simp [initSpokes]
  constructor
  · intro hm
    have : addSamplesMem m ks (initSpokes budget threads ad (newSpokes next base)) = none := by
      unfold addSamplesMem
      rw [sampleValues_over (List.range m) _ budget (List.mem_range.2 hm) (by omega)]
    unfold spokeLife spokeOps
    simp only [spokeOp, this]
  · obtain ⟨ho, _⟩ := initSpokes_owned base budget threads ad next
    obtain ⟨T, a1, _, a3, a4, _⟩ := addSamplesMem_ok base budget ks _ (by omega) ho
    have : addSeedMem upd T = none := by
      unfold addSeedMem setValues
      rw [List.getElem?_eq_none (by omega)]
    unfold spokeLife spokeOps
    simp only [spokeOp, a1]
    unfold spokeOps
    simp only [spokeOp, this]

/-- **C131 (d).** A second call of `add_samples` loses the function values of the first: for each of the samples a block stays allocated for ever. -/
theorem C131_twice_lost (budget threads : Nat) (ad : Bool) (next : Nat) (base : List Nat) (m : Nat) (hm : m ≤ budget) (ks ks' : Nat → List Bool) :
    ∃ rest lost, spokeLife budget threads ad [SpokeOp.samples m ks, SpokeOp.samples m ks'] next base = some rest ∧ rest.Perm (lost ++ base) ∧ lost.length = m := by
  have hlen : (initSpokes budget threads ad (newSpokes next base)).cells.length = budget := by simp [initSpokes]
  obtain ⟨ho, he⟩ := initSpokes_owned base budget threads ad next
  obtain ⟨T, a1, a2, a3, _, _, _, a7⟩ := addSamplesMem_ok base m ks _ (by rw [hlen]; exact hm) ho
  have hnil : (List.range m).flatMap (fun i => (((initSpokes budget threads ad (newSpokes next base)).cells[i]?.bind fun c => c.f)).toList) = [] := by
    rw [List.flatMap_eq_nil_iff]
    intro i _
    cases hc : (initSpokes budget threads ad (newSpokes next base)).cells[i]? with
    | none => rfl
    | some c => rw [Option.bind_some, (he i c (Nat.zero_le _) hc).1]; rfl
  rw [hnil] at a2
  have a2 : SpokeOwned base T := a2
  obtain ⟨U, b1, b2, _⟩ := addSamplesMem_ok base m ks' T (by omega) a2
  obtain ⟨rest, h1, h2⟩ := life_of_owned _ budget threads ad [SpokeOp.samples m ks, SpokeOp.samples m ks'] next base U (by
    unfold spokeOps
    simp only [spokeOp, a1]
    unfold spokeOps
    simp only [spokeOp, b1]
    rfl) b2
  refine ⟨rest, _, h1, h2, ?_⟩
  rw [List.length_flatMap]
  have : (List.range m).map (fun i => ((T.cells[i]?.bind fun c => c.f)).toList.length) = (List.range m).map fun _ => 1 := by
    apply List.map_congr_left
    intro i hi
    obtain ⟨c, c1, c2⟩ := a7 i (List.mem_range.1 hi)
    rw [c1, Option.bind_some]
    obtain ⟨v, hv⟩ := Option.isSome_iff_exists.1 c2
    rw [hv]
    rfl
  rw [this]
  simp

theorem spokeOps_cleared (s : Nat) : ∀ (os : List SpokeOp) (S T : SpokeMem), spokeOps os S = some T → S.cells = [] → s ∈ S.samplers → s ∉ S.live → s ∈ T.samplers ∧ s ∉ T.live := by
  intro os
  induction os with
  | nil => intro S T h _ h1 h2; cases h; exact ⟨h1, h2⟩
  | cons o os ih =>
    intro S T h hc h1 h2
    unfold spokeOps at h
    cases o with
    | seed upd =>
      have : addSeedMem upd S = none := by unfold addSeedMem setValues; rw [hc]; rfl
      simp [spokeOp, this] at h
    | samples m ks =>
      cases m with
      | zero =>
        have : addSamplesMem 0 ks S = some { S with num := 0 } := rfl
        simp only [spokeOp, this] at h
        exact ih _ T h hc h1 h2
      | succ m =>
        have : addSamplesMem (m + 1) ks S = none := by
          unfold addSamplesMem
          rw [sampleValues_over (List.range (m + 1)) S 0 (List.mem_range.2 (Nat.succ_pos m)) (by rw [hc]; simp)]
        simp [spokeOp, this] at h
    | clear =>
      have : clearSpokes S = none := by
        unfold clearSpokes
        cases hf : freeBlocks (spokeBlocks S) S.live with
        | none => rfl
        | some r =>
          exfalso
          have := (freeBlocks_inv _ _ _ hf).1 s
          have hp : 0 < (spokeBlocks S).count s := List.count_pos_iff.2 (by unfold spokeBlocks; exact List.mem_append_right _ h1)
          exact h2 (List.count_pos_iff.1 (by omega))
      simp [spokeOp, this] at h

/-- **C131 (e).** A surrogate that is cleared by a call: the pointers to the random samplers are kept, and whatever is done after that, the destructor frees them again. -/
theorem C131_clear_undefined (budget threads : Nat) (ad : Bool) (next : Nat) (base : List Nat) (hb : 0 < budget) (ht : 0 < threads) (hbase : ∀ a ∈ base, a < next) (us : List (List (Nat × List Bool))) (hus : SeedCalls 0 us) (os : List SpokeOp) :
    spokeLife budget threads ad (us.map SpokeOp.seed ++ SpokeOp.clear :: os) next base = none := by
  obtain ⟨ho, he⟩ := initSpokes_owned base budget threads ad next
  obtain ⟨S, h1, h2, _, h4⟩ := seeds_owned base us _ hus (by simpa [initSpokes, newSpokes] using hb) he ho
  obtain ⟨T, k1, k2, k3, k4, _⟩ := clearSpokes_owned base S h2
  have hs : next + 3 + (if ad then 6 else 3) ∈ T.samplers := by
    rw [k4, h4]
    exact List.mem_map.2 ⟨0, List.mem_range.2 ht, rfl⟩
  have hnl : next + 3 + (if ad then 6 else 3) ∉ T.live := by
    intro q
    have q := List.count_pos_iff.2 q
    rw [k2] at q
    have := hbase _ (List.count_pos_iff.1 q)
    omega
  unfold spokeLife
  rw [spokeOps_append, h1, Option.bind_some]
  have : spokeOps (SpokeOp.clear :: os) S = spokeOps os T := by
    show (match clearSpokes S with | none => none | some S' => spokeOps os S') = _
    rw [k1]
  rw [this]
  cases hU : spokeOps os T with
  | none => rfl
  | some U =>
    obtain ⟨u1, u2⟩ := spokeOps_cleared _ os T U hU k3 hs hnl
    simp only
    have : clearSpokes U = none := by
      unfold clearSpokes
      cases hf : freeBlocks (spokeBlocks U) U.live with
      | none => rfl
      | some r =>
        exfalso
        have := (freeBlocks_inv _ _ _ hf).1 (next + 3 + (if ad then 6 else 3))
        have hp : 0 < (spokeBlocks U).count (next + 3 + (if ad then 6 else 3)) := List.count_pos_iff.2 (by unfold spokeBlocks; exact List.mem_append_right _ u1)
        exact u2 (List.count_pos_iff.1 (by omega))
    rw [this]
    rfl

/-- **C131 (f).** A surrogate that had `n` seeds, was cleared and is set up again for a budget of at most `n` writes past its arrays with the first seed: the number of seeds is that of before. -/
theorem C131_again_undefined (budget threads : Nat) (ad : Bool) (next : Nat) (base : List Nat) (hb : 0 < budget) (us : List (List (Nat × List Bool))) (hus : SeedCalls 0 us) (budget' threads' : Nat) (ad' : Bool) (hb' : budget' ≤ us.length)
    (upd : List (Nat × List Bool)) :
    ∃ S T, spokeOps (us.map SpokeOp.seed) (initSpokes budget threads ad (newSpokes next base)) = some S ∧ clearSpokes S = some T ∧ addSeedMem upd (initSpokes budget' threads' ad' T) = none := by
  obtain ⟨ho, he⟩ := initSpokes_owned base budget threads ad next
  obtain ⟨S, h1, h2, h3, _⟩ := seeds_owned base us _ hus (by simpa [initSpokes, newSpokes] using hb) he ho
  obtain ⟨T, k1, _, _, _, k5⟩ := clearSpokes_owned base S h2
  refine ⟨S, T, h1, k1, ?_⟩
  have hn : T.num = us.length := by rw [k5, h3]; simp [initSpokes, newSpokes]
  unfold addSeedMem setValues
  rw [List.getElem?_eq_none (by simp [initSpokes]; omega)]

/-- The cells with a seed have a sample exactly in adaptive mode. -/
def CellsSampled (S : SpokeMem) : Prop := ∀ j, j < S.num → ∃ c, S.cells[j]? = some c ∧ c.sample.isSome = S.adaptive

theorem addSeedMem_sampled (upd : List (Nat × List Bool)) (S S' : SpokeMem) (base : List Nat) (hu : ∀ u ∈ upd, u.1 ≤ S.num) (hn : S.num < S.cells.length) (he : EmptyFrom S.num S) (ho : SpokeOwned base S) (h : addSeedMem upd S = some S') (hs : CellsSampled S) :
    CellsSampled S' ∧ S'.adaptive = S.adaptive := by
  have hc := List.getElem?_eq_getElem hn
  obtain ⟨ef, es⟩ := he S.num _ (Nat.le_refl _) hc
  obtain ⟨S1, a1, a2, a3, a4, a5, _⟩ := setValues_owned base S.num S.adaptive S _ hc (fun _ => es) ho
  have l1 : S1.cells.length = S.cells.length := by rw [a3, List.length_set]
  obtain ⟨S2, b1, b2, b3⟩ := buildCells_owned _ upd S1 (fun u h => by have := hu u h; omega) a2
  have hS2 : ∀ j, j < S.num + 1 → ∃ c, S2.cells[j]? = some c ∧ c.sample.isSome = S.adaptive := by
    intro j hj
    have hlt : j < S2.cells.length := by rw [b3.1]; omega
    obtain ⟨d, d1, _, d3⟩ := b3.2.1 j _ (List.getElem?_eq_getElem hlt)
    refine ⟨_, List.getElem?_eq_getElem hlt, ?_⟩
    rw [d3]
    by_cases hj' : j = S.num
    · subst hj'
      rw [a3, List.getElem?_set_self hn] at d1
      cases d1
      cases had : S.adaptive
      · simp [es]
      · simp
    · rw [a3, List.getElem?_set_ne (fun q => hj' q.symm)] at d1
      obtain ⟨c, c1, c2⟩ := hs j (by omega)
      rw [c1] at d1
      cases d1
      exact c2
  have n2 : S2.num = S.num := b3.2.2.1.trans a4
  have ad2 : S2.adaptive = S.adaptive := b3.2.2.2.1.trans a5
  unfold addSeedMem at h
  rw [a1] at h
  simp only [b1] at h
  split_ifs at h with hfull
  · obtain ⟨U, c1, _, c3, c4, c5, _⟩ := expandSpokes_owned _ { S2 with num := S2.num + 1 } b2
    rw [c1] at h
    cases h
    refine ⟨fun j hj => ?_, c5.trans ad2⟩
    rw [c4] at hj
    simp only at hj
    obtain ⟨c, q1, q2⟩ := hS2 j (by omega)
    refine ⟨c, ?_, by rw [c5]; exact q2.trans ad2.symm⟩
    rw [c3]
    exact (List.getElem?_append_left (List.getElem?_eq_some_iff.1 q1).1).trans q1
  · cases h
    refine ⟨fun j hj => ?_, ad2⟩
    simp only at hj
    obtain ⟨c, q1, q2⟩ := hS2 j (by omega)
    exact ⟨c, q1, q2.trans ad2.symm⟩

theorem seeds_sampled (base : List Nat) : ∀ (us : List (List (Nat × List Bool))) (S : SpokeMem), SeedCalls S.num us → S.num < S.cells.length → EmptyFrom S.num S → SpokeOwned base S → CellsSampled S →
    ∃ S', spokeOps (us.map SpokeOp.seed) S = some S' ∧ CellsSampled S' ∧ S'.adaptive = S.adaptive := by
  intro us
  induction us with
  | nil => intro S _ _ _ _ h; exact ⟨S, rfl, h, rfl⟩
  | cons upd us ih =>
    intro S hs hn he ho hsm
    obtain ⟨T, h1, h2, h3, h4, h5, _⟩ := addSeedMem_owned base upd S hs.1 hn he ho
    obtain ⟨t1, t2⟩ := addSeedMem_sampled upd S T base hs.1 hn he ho h1 hsm
    obtain ⟨U, k1, k2, k3⟩ := ih T (h4 ▸ hs.2) h5 h3 h2 t1
    refine ⟨U, ?_, k2, k3.trans t2⟩
    unfold spokeOps
    simp only [spokeOp, h1, List.map_cons]
    exact k1

/-- **C131 (g).** After any number of `add_new_seed` in adaptive mode `suggest_new_sample` finds a sample, whatever cell is selected, and with no seed at all it needs none; without adaptive mode it reads a null pointer as soon as there is a seed. -/
theorem C131_suggest_partial (budget threads : Nat) (ad : Bool) (next : Nat) (base : List Nat) (hb : 0 < budget) (us : List (List (Nat × List Bool))) (hus : SeedCalls 0 us) :
    ∃ S, spokeOps (us.map SpokeOp.seed) (initSpokes budget threads ad (newSpokes next base)) = some S ∧ (∀ i, i < us.length → suggestMem i S = if ad then some S else none) ∧ (us = [] → ∀ i, suggestMem i S = some S) := by
  obtain ⟨ho, he⟩ := initSpokes_owned base budget threads ad next
  have hpos : (initSpokes budget threads ad (newSpokes next base)).num < (initSpokes budget threads ad (newSpokes next base)).cells.length := by simpa [initSpokes, newSpokes] using hb
  obtain ⟨S, h1, _, h3, _⟩ := seeds_owned base us _ hus hpos he ho
  obtain ⟨S', k1, k2, k3⟩ := seeds_sampled base us _ hus hpos he ho (fun j hj => absurd hj (Nat.not_lt_zero j))
  rw [h1] at k1
  cases k1
  have hn : S.num = us.length := by rw [h3]; simp [initSpokes, newSpokes]
  refine ⟨S, h1, fun i hi => ?_, fun he i => by unfold suggestMem; rw [if_pos (by rw [hn, he]; rfl)]⟩
  obtain ⟨c, c1, c2⟩ := k2 i (by omega)
  unfold suggestMem
  rw [if_neg (by omega), c1]
  simp only
  rw [k3] at c2
  have c2 : c.sample.isSome = ad := c2
  cases ad with
  | true =>
    obtain ⟨v, hv⟩ := Option.isSome_iff_exists.1 c2
    rw [hv]
    rfl
  | false =>
    cases hcs : c.sample with
    | none => rfl
    | some v => rw [hcs] at c2; cases c2

theorem sampleValues_sample : ∀ (l : List Nat) (S S' : SpokeMem), sampleValues l S = some S' → (∀ (j : Nat) (c : SpokeCell), S.cells[j]? = some c → c.sample = none) → ∀ (j : Nat) (c : SpokeCell), S'.cells[j]? = some c → c.sample = none := by
  intro l
  induction l with
  | nil => intro S S' h hs; cases h; exact hs
  | cons i l ih =>
    intro S S' h hs
    unfold sampleValues setValues at h
    cases hc : S.cells[i]? with
    | none => rw [hc] at h; cases h
    | some c =>
      rw [hc] at h
      refine ih _ S' h fun j d hd => ?_
      by_cases hij : i = j
      · subst hij
        have hlt : i < S.cells.length := (List.getElem?_eq_some_iff.1 hc).1
        rw [List.getElem?_set_self hlt] at hd
        cases hd
        exact hs i c hc
      · rw [List.getElem?_set_ne hij] at hd
        exact hs j d hd

/-- **C131 (h).** After `add_samples` the cells have no sample, also in adaptive mode: `suggest_new_sample` reads a null pointer, whatever cell is selected. -/
theorem C131_suggest_undefined (budget threads : Nat) (ad : Bool) (next : Nat) (base : List Nat) (m : Nat) (hm : m ≤ budget) (ks : Nat → List Bool) :
    ∃ S, spokeOps [SpokeOp.samples m ks] (initSpokes budget threads ad (newSpokes next base)) = some S ∧ ∀ i, i < m → suggestMem i S = none := by
  have hlen : (initSpokes budget threads ad (newSpokes next base)).cells.length = budget := by simp [initSpokes]
  obtain ⟨ho, he⟩ := initSpokes_owned base budget threads ad next
  obtain ⟨T, a1, a2, a3, _⟩ := sampleValues_ok base (List.range m) _ List.nodup_range (fun i hi => by have := List.mem_range.1 hi; omega) ho
  obtain ⟨U, b1, b2, b3⟩ := buildCells_owned _ ((List.range m).map fun i => (i, ks i)) T (fun u hu => by
    obtain ⟨i, hi, rfl⟩ := List.mem_map.1 hu
    have := List.mem_range.1 hi
    simp only
    omega) a2
  have hT := sampleValues_sample _ _ T a1 (fun j c hc => (he j c (Nat.zero_le _) hc).2)
  refine ⟨{ U with num := m }, ?_, fun i hi => ?_⟩
  · unfold spokeOps
    simp only [spokeOp, addSamplesMem, a1, b1]
    rfl
  · unfold suggestMem
    rw [if_neg (by show ¬m = 0; omega)]
    cases hc : U.cells[i]? with
    | none => simp only [hc]
    | some c =>
      obtain ⟨d, d1, _, d3⟩ := b3.2.1 i c hc
      simp only [hc]
      rw [d3, hT i d d1]
      rfl

/-! ## Examples -/

/-- Three seeds in a surrogate with room for two, two functions, adaptive: the arrays grow, and nothing is left but the block of others. -/
example : spokeLife 2 1 true [.seed [(0, [true, false])], .seed [(0, [true, true]), (1, [false, true])], .seed [(2, [true, true])]] 10 [7] = some [7] := by decide +kernel

/-- The same by `C131_life_partial`, whose hypothesis holds. -/
example : SeedCalls 0 [[(0, [true, false])], [(0, [true, true]), (1, [false, true])], [(2, [true, true])]] := by simp [SeedCalls]

/-- Two calls of `add_samples`: two blocks are lost. -/
example : spokeLife 4 1 false [.samples 2 (fun _ => [true]), .samples 2 (fun _ => [true])] 10 [7] = some [19, 17, 7] := by decide +kernel

/-- A call of `clear_memory`. -/
example : spokeLife 2 1 true [.seed [(0, [true])], .clear] 10 [7] = none := by decide +kernel

/-! ## No block has two owners -/

theorem freshIds_spec (n k : Nat) : (freshIds n k).Nodup ∧ ∀ a ∈ freshIds n k, n ≤ a ∧ a < n + k := by
  unfold freshIds
  refine ⟨List.Nodup.map (fun a b h => Nat.add_left_cancel h) List.nodup_range, fun a ha => ?_⟩
  obtain ⟨x, hx, rfl⟩ := List.mem_map.1 ha
  have := List.mem_range.1 hx
  omega

theorem newCoefs_spec : ∀ (ks : List Bool) (n : Nat), (newCoefs n ks).reduceOption.Nodup ∧ ∀ a ∈ (newCoefs n ks).reduceOption, n ≤ a ∧ a < n + ks.length := by
  intro ks
  induction ks with
  | nil => intro n; exact ⟨List.nodup_nil, fun a ha => by cases ha⟩
  | cons b ks ih =>
    intro n
    obtain ⟨h1, h2⟩ := ih (n + 1)
    cases b with
    | false =>
      refine ⟨h1, fun a ha => ?_⟩
      have := h2 a ha
      rw [List.length_cons]
      omega
    | true =>
      have e : (newCoefs n (true :: ks)).reduceOption = n :: (newCoefs (n + 1) ks).reduceOption := rfl
      rw [e]
      refine ⟨List.nodup_cons.2 ⟨fun hm => by have := h2 n hm; omega, h1⟩, fun a ha => ?_⟩
      rw [List.length_cons]
      rcases List.mem_cons.1 ha with rfl | ha
      · omega
      · have := h2 a ha
        omega

theorem freed_fresh (n : Nat) (l live r : List Nat) (h : freeBlocks l live = some r) (hf : FreshBlocks n live) : FreshBlocks n r :=
  fresh_le n r live hf (fun a => by have := (freeBlocks_inv l live r h).2 a; omega)

theorem buildCell_fresh (i : Nat) (ks : List Bool) (S T : SpokeMem) (h : buildCell i ks S = some T) (hf : FreshBlocks S.next S.live) : FreshBlocks T.next T.live := by
  unfold buildCell at h
  cases hc : S.cells[i]? with
  | none => rw [hc] at h; cases h
  | some c =>
    rw [hc] at h
    simp only at h
    split at h
    · cases h
    · rename_i live hl
      cases h
      have hlive := freed_fresh S.next _ _ _ hl hf
      obtain ⟨n1, n2⟩ := newCoefs_spec ks (S.next + 2)
      refine (fresh_append S.next (2 + ks.length) _ live ?_ ?_ hlive).1
      · cases c.order <;> cases c.coef <;> simp only [List.nil_append, List.cons_append]
        · refine List.nodup_cons.2 ⟨fun hm => ?_, List.nodup_cons.2 ⟨fun hm => by have := n2 _ hm; omega, n1⟩⟩
          rcases List.mem_cons.1 hm with h0 | h0
          · omega
          · have := n2 _ h0
            omega
        · exact List.nodup_cons.2 ⟨fun hm => by have := n2 _ hm; omega, n1⟩
        · exact List.nodup_cons.2 ⟨fun hm => by have := n2 _ hm; omega, n1⟩
        · exact n1
      · intro a ha
        revert ha
        cases c.order <;> cases c.coef <;> simp only [List.nil_append, List.cons_append, List.mem_cons] <;> intro ha
        · rcases ha with rfl | rfl | ha
          · omega
          · omega
          · have := n2 a ha
            omega
        · rcases ha with rfl | ha
          · omega
          · have := n2 a ha
            omega
        · rcases ha with rfl | ha
          · omega
          · have := n2 a ha
            omega
        · have := n2 a ha
          omega

theorem buildCells_fresh : ∀ (l : List (Nat × List Bool)) (S T : SpokeMem), buildCells l S = some T → FreshBlocks S.next S.live → FreshBlocks T.next T.live := by
  intro l
  induction l with
  | nil => intro S T h hf; cases h; exact hf
  | cons u l ih =>
    intro S T h hf
    unfold buildCells at h
    split at h
    · cases h
    · rename_i S' hS
      exact ih S' T h (buildCell_fresh u.1 u.2 S S' hS hf)

theorem setValues_fresh (i : Nat) (w : Bool) (S T : SpokeMem) (h : setValues i w S = some T) (hf : FreshBlocks S.next S.live) : FreshBlocks T.next T.live := by
  unfold setValues at h
  split at h
  · cases h
  · cases h
    refine (fresh_append S.next 2 _ S.live ?_ ?_ hf).1
    · cases w <;> simp
    · intro a ha
      cases w
      · have : a = S.next := by simpa using ha
        omega
      · have : a = S.next ∨ a = S.next + 1 := by simpa using ha
        omega

theorem sampleValues_fresh : ∀ (l : List Nat) (S T : SpokeMem), sampleValues l S = some T → FreshBlocks S.next S.live → FreshBlocks T.next T.live := by
  intro l
  induction l with
  | nil => intro S T h hf; cases h; exact hf
  | cons u l ih =>
    intro S T h hf
    unfold sampleValues at h
    split at h
    · cases h
    · rename_i S' hS
      exact ih S' T h (setValues_fresh u false S S' hS hf)

theorem expandSpokes_fresh (S T : SpokeMem) (h : expandSpokes S = some T) (hf : FreshBlocks S.next S.live) : FreshBlocks T.next T.live := by
  unfold expandSpokes at h
  split at h
  · cases h
  · rename_i live hl
    cases h
    obtain ⟨n1, n2⟩ := freshIds_spec S.next S.arrays.length
    exact freed_fresh _ _ _ _ hl (fresh_append S.next S.arrays.length _ S.live n1 n2 hf).1

theorem spokeOp_fresh (o : SpokeOp) (S T : SpokeMem) (h : spokeOp o S = some T) (hf : FreshBlocks S.next S.live) : FreshBlocks T.next T.live := by
  cases o with
  | seed upd =>
    unfold spokeOp addSeedMem at h
    simp only at h
    split at h
    · cases h
    · rename_i S1 h1
      split at h
      · cases h
      · rename_i S2 h2
        have f2 := buildCells_fresh upd S1 S2 h2 (setValues_fresh _ _ S S1 h1 hf)
        split at h
        · exact expandSpokes_fresh _ T h f2
        · cases h
          exact f2
  | samples m ks =>
    unfold spokeOp addSamplesMem at h
    simp only at h
    split at h
    · cases h
    · rename_i S1 h1
      split at h
      · cases h
      · rename_i S2 h2
        cases h
        exact buildCells_fresh _ S1 S2 h2 (sampleValues_fresh _ S S1 h1 hf)
  | clear =>
    unfold spokeOp clearSpokes at h
    simp only at h
    split at h
    · cases h
    · rename_i live hl
      cases h
      exact freed_fresh _ _ _ _ hl hf

theorem spokeOps_fresh : ∀ (os : List SpokeOp) (S T : SpokeMem), spokeOps os S = some T → FreshBlocks S.next S.live → FreshBlocks T.next T.live := by
  intro os
  induction os with
  | nil => intro S T h hf; cases h; exact hf
  | cons o os ih =>
    intro S T h hf
    unfold spokeOps at h
    split at h
    · cases h
    · rename_i S' hS
      exact ih S' T h (spokeOp_fresh o S S' hS hf)

/-- C131 (h): for all sequences of calls that are defined, no block is given out twice; and after adding seeds one by one no two pointers of the surrogate are the same, and none is a block of others. -/
theorem C131_distinct (budget threads : Nat) (ad : Bool) (next : Nat) (base : List Nat) (hn : base.Nodup) (hbase : ∀ a ∈ base, a < next) :
    (∀ os S, spokeOps os (initSpokes budget threads ad (newSpokes next base)) = some S → S.live.Nodup) ∧
    ∀ us, 0 < budget → SeedCalls 0 us → ∃ S, spokeOps (us.map SpokeOp.seed) (initSpokes budget threads ad (newSpokes next base)) = some S ∧ (spokeBlocks S ++ base).Nodup := by
  have hone := List.nodup_iff_count_le_one.1 hn
  have hf : FreshBlocks next base := fun a => ⟨hone a, fun q => List.count_eq_zero_of_not_mem (fun hm => by have := hbase a hm; omega)⟩
  obtain ⟨n1, n2⟩ := freshIds_spec next (3 + (if ad then 6 else 3) + threads)
  have hi : FreshBlocks (initSpokes budget threads ad (newSpokes next base)).next (initSpokes budget threads ad (newSpokes next base)).live :=
    (fresh_append next (3 + (if ad then 6 else 3) + threads) _ base n1 n2 hf).1
  have hall : ∀ os S, spokeOps os (initSpokes budget threads ad (newSpokes next base)) = some S → S.live.Nodup := fun os S h =>
    List.nodup_iff_count_le_one.2 (fun a => (spokeOps_fresh os _ S h hi a).1)
  refine ⟨hall, fun us hb hus => ?_⟩
  obtain ⟨ho, he⟩ := initSpokes_owned base budget threads ad next
  obtain ⟨S, h1, h2, _⟩ := seeds_owned base us _ hus (by simpa [initSpokes, newSpokes] using hb) he ho
  refine ⟨S, h1, ?_⟩
  have hp : S.live.Perm (spokeBlocks S ++ base) := List.perm_iff_count.2 (fun a => by rw [h2 a, List.count_append])
  exact hp.nodup_iff.1 (hall _ S h1)

/-- A surrogate beside block 7, to which two seeds are added: all its blocks are different. -/
example : ∃ S, spokeOps ([[(0, [true, false])], [(0, [true, true]), (1, [false, true])]].map SpokeOp.seed) (initSpokes 2 1 true (newSpokes 10 [7])) = some S ∧ (spokeBlocks S ++ [7]).Nodup :=
  (C131_distinct 2 1 true 10 [7] (by decide) (by decide)).2 _ (by decide) (by simp [SeedCalls])

end VoroCrust
