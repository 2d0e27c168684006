import Verif.Model.SurfaceMemory
import Verif.Props.PoolMemory

/-!
# Properties of the memory of the input surface (C133)
-/

namespace VoroCrust

/-- The faces of a surface. -/
def surfFaces (S : SurfMem) : List Nat := S.slots.take S.numFaces

/-- The blocks of a surface. -/
def surfBlocks (S : SurfMem) : List Nat := S.points :: S.faces :: (S.pointBlocks ++ surfFaces S)

/-- A heap as it can be: no block is there twice, and new blocks are new. -/
structure HeapOk (h : Heap) : Prop where
  nodup : h.live.Nodup
  fresh : ∀ b ∈ h.live, b < h.next

/-- A surface that is as it should be, in a heap where the other blocks are `base`. -/
structure SurfOk (base : List Nat) (S : SurfMem) (h : Heap) : Prop where
  owned : ∀ a, h.live.count a = (surfBlocks S).count a + base.count a
  room : S.numFaces ≤ S.slots.length

theorem freeBlocks_sublist : ∀ (l live r : List Nat), freeBlocks l live = some r → r.Sublist live := by
  intro l
  induction l with
  | nil => intro live r h; cases h; exact List.Sublist.refl _
  | cons b l ih =>
    intro live r h
    unfold freeBlocks at h
    by_cases hb : b ∈ live
    · rw [if_pos hb] at h
      exact (ih _ _ h).trans List.erase_sublist
    · rw [if_neg hb] at h
      exact absurd h (by simp)

theorem heapOk_alloc (h : Heap) (k : Nat) (H : HeapOk h) : HeapOk ⟨h.next + k, freshIds h.next k ++ h.live⟩ := by
  have hm : ∀ b, b ∈ freshIds h.next k → h.next ≤ b ∧ b < h.next + k := by
    intro b hb
    unfold freshIds at hb
    rw [List.mem_map] at hb
    obtain ⟨j, hj, rfl⟩ := hb
    rw [List.mem_range] at hj
    show h.next ≤ h.next + j ∧ h.next + j < h.next + k
    omega
  refine ⟨?_, ?_⟩
  · show (freshIds h.next k ++ h.live).Nodup
    rw [List.nodup_append]
    refine ⟨?_, H.nodup, ?_⟩
    · unfold freshIds
      exact List.Nodup.map (fun x y hxy => Nat.add_left_cancel hxy) List.nodup_range
    · intro a ha b hb hab
      have h1 := hm a ha
      have h2 := H.fresh b hb
      omega
  · intro b hb
    have hb : b ∈ freshIds h.next k ++ h.live := hb
    rw [List.mem_append] at hb
    show b < h.next + k
    rcases hb with hb | hb
    · exact (hm b hb).2
    · have := H.fresh b hb
      omega

theorem heapOk_sub (h : Heap) (live : List Nat) (H : HeapOk h) (hs : live.Sublist h.live) : HeapOk ⟨h.next, live⟩ :=
  ⟨H.nodup.sublist hs, fun b hb => H.fresh b (hs.subset hb)⟩

theorem count_filter_add (p : Nat → Bool) (l : List Nat) (a : Nat) : (l.filter p).count a + (l.filter fun b => !p b).count a = l.count a := by
  induction l with
  | nil => rfl
  | cons b l ih =>
    rw [List.filter_cons, List.filter_cons]
    cases hp : p b
    · simp only [Bool.false_eq_true, if_false, Bool.not_false, if_true, List.count_cons]
      omega
    · simp only [Bool.false_eq_true, if_false, Bool.not_true, if_true, List.count_cons]
      omega

/-- The loop over the faces: none is freed twice, and what stays is what is not degenerate. -/
theorem dropFaces_ok (deg : Nat → Bool) : ∀ (k i : Nat) (slots live : List Nat), i + k ≤ slots.length → (∀ a, ((slots.drop i).take k).count a ≤ live.count a) →
    ∃ n s l, dropFaces deg k i slots live = some (n, s, l) ∧ n ≤ i + k ∧ s.length = slots.length ∧ s.take i = slots.take i ∧ i ≤ n ∧
      (∀ a, ((s.drop i).take (n - i)).count a = (((slots.drop i).take k).filter fun b => !deg b).count a) ∧
      (∀ a, l.count a + (((slots.drop i).take k).filter deg).count a = live.count a) ∧ l.Sublist live := by
  intro k
  induction k with
  | zero =>
    intro i slots live hl hc
    refine ⟨i, slots, live, rfl, by omega, rfl, rfl, Nat.le_refl _, fun a => by simp, fun a => by simp, List.Sublist.refl _⟩
  | succ k ih =>
    intro i slots live hl hc
    have hi : i < slots.length := by omega
    have hd : slots.drop i = slots[i] :: slots.drop (i + 1) := List.drop_eq_getElem_cons hi
    have hseg : (slots.drop i).take (k + 1) = slots[i] :: (slots.drop (i + 1)).take k := by rw [hd, List.take_succ_cons]
    unfold dropFaces
    rw [List.getElem?_eq_getElem hi]
    simp only
    have hmem : slots[i] ∈ live := by
      have := hc slots[i]
      rw [hseg, List.count_cons_self] at this
      exact List.count_pos_iff.1 (by omega)
    rw [if_pos hmem]
    cases hdeg : deg slots[i]
    · simp only [Bool.false_eq_true, if_false]
      obtain ⟨n, s, l, h1, h2, h3, h4, h5, h6, h7, h8⟩ := ih (i + 1) slots live (by omega) (fun a => by
        have := hc a
        rw [hseg, List.count_cons] at this
        omega)
      have his : i < s.length := by omega
      have hsi : s[i] = slots[i] := by
        have e1 : (s.take (i + 1))[i]? = (slots.take (i + 1))[i]? := by rw [h4]
        rw [List.getElem?_take_of_lt (Nat.lt_succ_self i), List.getElem?_take_of_lt (Nat.lt_succ_self i), List.getElem?_eq_getElem his, List.getElem?_eq_getElem hi] at e1
        exact Option.some.inj e1
      refine ⟨n, s, l, h1, by omega, h3, ?_, by omega, ?_, ?_, h8⟩
      · have e : (s.take (i + 1)).take i = (slots.take (i + 1)).take i := by rw [h4]
        rw [List.take_take, List.take_take] at e
        have hmin : min i (i + 1) = i := by omega
        rw [hmin] at e
        exact e
      · intro a
        have hn : n - i = (n - (i + 1)) + 1 := by omega
        have hds : s.drop i = s[i] :: s.drop (i + 1) := List.drop_eq_getElem_cons his
        rw [hseg, hds, hn, List.take_succ_cons, List.filter_cons, hdeg, hsi]
        simp only [Bool.not_false, if_true, List.count_cons]
        have := h6 a
        omega
      · intro a
        rw [hseg, List.filter_cons, hdeg]
        simp only [Bool.false_eq_true, if_false]
        exact h7 a
    · simp only [if_true]
      have hik : i + k < slots.length := by omega
      rw [List.getElem?_eq_getElem hik]
      simp only
      have hd' : (slots.set i slots[i + k]).drop i = slots[i + k] :: slots.drop (i + 1) := by
        rw [List.drop_set, if_neg (by omega), Nat.sub_self, hd, List.set_cons_zero]
      have hcount : ∀ (p : Nat → Bool) (a : Nat), ((((slots.set i slots[i + k]).drop i).take k).filter p).count a = (((slots.drop (i + 1)).take k).filter p).count a := by
        intro p a
        rw [hd']
        cases k with
        | zero => simp
        | succ j =>
          have hj : j < (slots.drop (i + 1)).length := by rw [List.length_drop]; omega
          have hget : (slots.drop (i + 1))[j] = slots[i + (j + 1)] := by
            rw [List.getElem_drop]
            congr 1
            omega
          rw [List.take_succ_cons, List.take_succ_eq_append_getElem hj, hget, List.filter_append, List.count_append, List.filter_cons, List.filter_cons, List.filter_nil]
          by_cases hp : p slots[i + (j + 1)] = true
          · rw [if_pos hp, if_pos hp, List.count_cons, List.count_cons, List.count_nil]
            omega
          · rw [if_neg hp, if_neg hp, List.count_nil]
            omega
      have hall : ∀ a, (((slots.set i slots[i + k]).drop i).take k).count a = ((slots.drop (i + 1)).take k).count a := by
        intro a
        have e := hcount (fun _ => true) a
        rw [List.filter_true, List.filter_true] at e
        exact e
      obtain ⟨n, s, l, h1, h2, h3, h4, h5, h6, h7, h8⟩ := ih i (slots.set i slots[i + k]) (live.erase slots[i]) (by rw [List.length_set]; omega) (fun a => by
        have := hc a
        rw [hseg, List.count_cons] at this
        rw [hall a, List.count_erase]
        by_cases hab : (slots[i] == a) = true
        · rw [if_pos hab] at this ⊢; omega
        · rw [if_neg hab] at this ⊢; omega)
      refine ⟨n, s, l, h1, by omega, by rw [h3, List.length_set], ?_, h5, ?_, ?_, h8.trans List.erase_sublist⟩
      · rw [h4, List.take_set_of_le (Nat.le_refl i)]
      · intro a
        rw [h6 a, hcount, hseg, List.filter_cons, hdeg]
        simp
      · intro a
        have e := h7 a
        rw [hcount, List.count_erase] at e
        rw [hseg, List.filter_cons, hdeg, if_pos rfl, List.count_cons]
        have hpos : 0 < live.count slots[i] := List.count_pos_iff.2 hmem
        by_cases hab : (slots[i] == a) = true
        · have hab' : slots[i] = a := by simpa using hab
          rw [hab'] at hpos
          rw [if_pos hab] at e ⊢
          omega
        · rw [if_neg hab] at e ⊢
          omega

/-- The welding leaves a surface as it should be. -/
theorem weldMem_ok (base : List Nat) (w : WeldPlan) (S : SurfMem) (h : Heap) (H : HeapOk h) (O : SurfOk base S h) :
    ∃ h' S', weldMem w S h = some (h', S') ∧ HeapOk h' ∧ SurfOk base S' h' ∧ S'.pointBlocks.length = w.kept ∧
      (surfFaces S').Perm ((surfFaces S).filter fun b => decide (w.kept = S.pointBlocks.length) || !w.degenerate b) := by
  unfold weldMem
  by_cases hk : w.kept = S.pointBlocks.length
  · rw [if_pos hk]
    have hf : freeBlocks [h.next] (h.next :: h.live) = some h.live := by
      unfold freeBlocks
      rw [if_pos List.mem_cons_self, List.erase_cons_head]
      rfl
    rw [hf]
    refine ⟨_, _, rfl, ⟨H.nodup, fun b hb => ?_⟩, ⟨O.owned, O.room⟩, hk.symm, ?_⟩
    · have := H.fresh b hb
      show b < h.next + 1
      omega
    · have e : (surfFaces S).filter (fun b => decide (w.kept = S.pointBlocks.length) || !w.degenerate b) = surfFaces S := by
        rw [List.filter_eq_self]
        intro b _
        rw [decide_eq_true hk]
        rfl
      rw [e]
  · rw [if_neg hk]
    obtain ⟨n, s, l, h1, h2, h3, h4, h5, h6, h7, h8⟩ := dropFaces_ok w.degenerate S.numFaces 0 S.slots (freshIds h.next (2 + w.kept) ++ h.live) (by have := O.room; omega) (fun a => by
      have := O.owned a
      unfold surfBlocks surfFaces at this
      simp only [List.count_cons, List.count_append] at this
      rw [List.drop_zero, List.count_append]
      omega)
    rw [h1]
    simp only
    have hfr : freshIds h.next (2 + w.kept) = h.next :: (h.next + 1) :: freshIds (h.next + 2) w.kept := by
      rw [freshIds_add]
      rfl
    rw [List.drop_zero] at h6 h7
    have hbal : ∀ a, l.count a = (S.pointBlocks ++ [S.points, h.next]).count a + (((h.next + 1) :: S.faces :: (freshIds (h.next + 2) w.kept ++ s.take n)).count a + base.count a) := by
      intro a
      have e1 := h6 a
      have e2 := h7 a
      have e3 := O.owned a
      have e4 := count_filter_add w.degenerate (S.slots.take S.numFaces) a
      unfold surfBlocks surfFaces at e3
      rw [List.drop_zero, Nat.sub_zero] at e1
      rw [hfr] at e2
      simp only [List.count_cons, List.count_append, List.count_nil] at e2 e3 ⊢
      omega
    obtain ⟨r, hr1, hr2⟩ := freeBlocks_ok (S.pointBlocks ++ [S.points, h.next]) l (fun a => by have := hbal a; omega)
    rw [hr1]
    refine ⟨_, _, rfl, ?_, ⟨fun a => ?_, ?_⟩, ?_, ?_⟩
    · exact heapOk_sub ⟨h.next + (2 + w.kept), _⟩ r (heapOk_alloc h (2 + w.kept) H) ((freeBlocks_sublist _ _ _ hr1).trans h8)
    · have e1 := hbal a
      have e2 := hr2 a
      show r.count a = ((h.next + 1) :: S.faces :: (freshIds (h.next + 2) w.kept ++ s.take n)).count a + base.count a
      omega
    · show n ≤ s.length
      have := O.room
      omega
    · show (freshIds (h.next + 2) w.kept).length = w.kept
      unfold freshIds
      rw [List.length_map, List.length_range]
    · rw [List.perm_iff_count]
      intro a
      have e1 := h6 a
      rw [List.drop_zero, Nat.sub_zero] at e1
      have e2 : (fun b => decide (w.kept = S.pointBlocks.length) || !w.degenerate b) = fun b => !w.degenerate b := by
        funext b
        rw [decide_eq_false hk]
        rfl
      rw [e2]
      exact e1

/-- The reading leaves a surface as it should be. -/
theorem readMem_ok (base : List Nat) (f : ObjPlan) (h : Heap) (H : HeapOk h) (hb : ∀ a, h.live.count a = base.count a) :
    ∃ h' S, readMem f h = some (h', S) ∧ HeapOk h' ∧ SurfOk base S h' ∧ S.pointBlocks.length = f.weld.kept := by
  unfold readMem
  have hl : (freshIds (h.next + 2 + f.numPoints) f.numFaces).length = f.numFaces := by
    unfold freshIds
    rw [List.length_map, List.length_range]
  obtain ⟨h', S', h1, h2, h3, h4, _⟩ := weldMem_ok base f.weld ⟨h.next, freshIds (h.next + 2) f.numPoints, h.next + 1, freshIds (h.next + 2 + f.numPoints) f.numFaces, f.numFaces⟩
    ⟨h.next + (2 + f.numPoints + f.numFaces), freshIds h.next (2 + f.numPoints + f.numFaces) ++ h.live⟩ (heapOk_alloc h _ H) ⟨fun a => by
      have e : freshIds h.next (2 + f.numPoints + f.numFaces) = h.next :: (h.next + 1) :: (freshIds (h.next + 2) f.numPoints ++ freshIds (h.next + 2 + f.numPoints) f.numFaces) := by
        rw [Nat.add_assoc, freshIds_add, freshIds_add]
        rfl
      unfold surfBlocks surfFaces
      simp only
      rw [List.take_of_length_le (Nat.le_of_eq hl), e, List.count_append, hb a], Nat.le_of_eq hl.symm⟩
  exact ⟨h', S', h1, h2, h3, h4⟩

/-- The blocks of the surface so far. -/
def optBlocks : Option SurfMem → List Nat
  | none => []
  | some S => surfBlocks S

theorem mergeMem_ok (base : List Nat) (A : Option SurfMem) (f : ObjPlan) (h : Heap) (H : HeapOk h) (hb : ∀ a, h.live.count a = (optBlocks A).count a + base.count a) (hA : ∀ S, A = some S → S.numFaces ≤ S.slots.length) :
    ∃ h' S, mergeMem A f h = some (h', S) ∧ HeapOk h' ∧ SurfOk base S h' ∧ S.pointBlocks.length = (match A with | none => 0 | some A => A.pointBlocks.length) + f.weld.kept := by
  unfold mergeMem
  obtain ⟨h1, T, hr, HT, OT, hn⟩ := readMem_ok (optBlocks A ++ base) f h H (fun a => by rw [List.count_append]; exact hb a)
  rw [hr]
  simp only
  have ht : (T.slots.take T.numFaces).length = T.numFaces := by rw [List.length_take]; exact Nat.min_eq_left OT.room
  have hfr : freshIds h1.next 2 = [h1.next, h1.next + 1] := rfl
  cases A with
  | none =>
    simp only [List.append_nil, List.nil_append, List.length_nil, Nat.zero_add]
    obtain ⟨r, hr1, hr2⟩ := freeBlocks_ok [T.points, T.faces] (freshIds h1.next 2 ++ h1.live) (fun a => by
      have e := OT.owned a
      unfold surfBlocks at e
      simp only [List.count_cons, List.count_append, List.count_nil] at e ⊢
      omega)
    rw [hr1]
    refine ⟨_, _, rfl, heapOk_sub ⟨h1.next + 2, _⟩ r (heapOk_alloc h1 2 HT) (freeBlocks_sublist _ _ _ hr1), ⟨fun a => ?_, ?_⟩, hn⟩
    · have e1 := OT.owned a
      have e2 := hr2 a
      show r.count a = (h1.next :: (h1.next + 1) :: (T.pointBlocks ++ (T.slots.take T.numFaces).take T.numFaces)).count a + base.count a
      rw [List.take_of_length_le (Nat.le_of_eq ht)]
      rw [hfr] at e2
      unfold surfBlocks surfFaces at e1
      simp only [optBlocks, List.count_cons, List.count_append, List.count_nil] at e1 e2 ⊢
      omega
    · show T.numFaces ≤ (T.slots.take T.numFaces).length
      omega
  | some A =>
    simp only
    have hA' := hA A rfl
    have ha : (A.slots.take A.numFaces).length = A.numFaces := by rw [List.length_take]; exact Nat.min_eq_left hA'
    obtain ⟨r, hr1, hr2⟩ := freeBlocks_ok ([T.points, T.faces] ++ [A.points, A.faces]) (freshIds h1.next 2 ++ h1.live) (fun a => by
      have e := OT.owned a
      simp only [optBlocks, surfBlocks, List.count_cons, List.count_append, List.count_nil] at e ⊢
      omega)
    rw [hr1]
    refine ⟨_, _, rfl, heapOk_sub ⟨h1.next + 2, _⟩ r (heapOk_alloc h1 2 HT) (freeBlocks_sublist _ _ _ hr1), ⟨fun a => ?_, ?_⟩, ?_⟩
    · have e1 := OT.owned a
      have e2 := hr2 a
      show r.count a = (h1.next :: (h1.next + 1) :: ((A.pointBlocks ++ T.pointBlocks) ++ (A.slots.take A.numFaces ++ T.slots.take T.numFaces).take ((A.slots.take A.numFaces).length + T.numFaces))).count a + base.count a
      rw [List.take_of_length_le (by rw [List.length_append]; omega)]
      rw [hfr] at e2
      simp only [optBlocks, surfBlocks, surfFaces, List.count_cons, List.count_append, List.count_nil] at e1 e2 ⊢
      omega
    · show (A.slots.take A.numFaces).length + T.numFaces ≤ (A.slots.take A.numFaces ++ T.slots.take T.numFaces).length
      rw [List.length_append]
      omega
    · show (A.pointBlocks ++ T.pointBlocks).length = A.pointBlocks.length + f.weld.kept
      rw [List.length_append, hn]

theorem mergeAll_ok (base : List Nat) : ∀ (files : List ObjPlan) (A : Option SurfMem) (h : Heap), HeapOk h → (∀ a, h.live.count a = (optBlocks A).count a + base.count a) →
    (∀ S, A = some S → S.numFaces ≤ S.slots.length) → (files ≠ [] ∨ A ≠ none) →
    ∃ h' S, mergeAll files A h = some (h', some S) ∧ HeapOk h' ∧ SurfOk base S h' := by
  intro files
  induction files with
  | nil =>
    intro A h H hb hA hne
    cases A with
    | none => exact absurd hne (by simp)
    | some S => exact ⟨h, S, rfl, H, hb, hA S rfl⟩
  | cons f fs ih =>
    intro A h H hb hA _
    obtain ⟨h1, S, h2, h3, h4, _⟩ := mergeMem_ok base A f h H hb hA
    unfold mergeAll
    rw [h2]
    exact ih (some S) h1 h3 h4.owned (fun S' e => by cases e; exact h4.room) (Or.inr (by simp))

theorem readAllMem_ok (files : List ObjPlan) (w : WeldPlan) (h : Heap) (H : HeapOk h) (hne : files ≠ []) :
    ∃ h' S, readAllMem files w h = some (h', S) ∧ HeapOk h' ∧ SurfOk h.live S h' := by
  unfold readAllMem
  by_cases hl : files.length > 1
  · rw [if_pos hl]
    obtain ⟨h1, S, h2, h3, h4⟩ := mergeAll_ok h.live files none h H (fun a => by simp [optBlocks]) (fun S e => by cases e) (Or.inl hne)
    rw [h2]
    obtain ⟨h', S', h5, h6, h7, _, _⟩ := weldMem_ok h.live w S h1 h3 h4
    exact ⟨h', S', h5, h6, h7⟩
  · rw [if_neg hl]
    cases files with
    | nil => exact absurd rfl hne
    | cons f fs =>
      obtain ⟨h', S, h1, h2, h3, _⟩ := readMem_ok h.live f h H (fun a => rfl)
      exact ⟨h', S, h1, h2, h3⟩

/-- **C133** (welding): for every surface in order, `weld_nearby_points` frees no block that is not allocated; afterwards the points are as many as the welding leaves, the faces are those that are not degenerate, each once, and nothing
else is allocated or lost. -/
theorem C133_weld (w : WeldPlan) (S : SurfMem) (h : Heap) (base : List Nat) (H : h.live.Nodup ∧ ∀ b ∈ h.live, b < h.next) (hroom : S.numFaces ≤ S.slots.length)
    (howned : h.live.Perm (S.points :: S.faces :: (S.pointBlocks ++ S.slots.take S.numFaces) ++ base)) :
    ∃ h' S', weldMem w S h = some (h', S') ∧ S'.pointBlocks.length = w.kept ∧
      (S'.slots.take S'.numFaces).Perm ((S.slots.take S.numFaces).filter fun b => decide (w.kept = S.pointBlocks.length) || !w.degenerate b) ∧
      h'.live.Perm (S'.points :: S'.faces :: (S'.pointBlocks ++ S'.slots.take S'.numFaces) ++ base) ∧ h'.live.Nodup := by
  obtain ⟨h', S', h1, h2, h3, h4, h5⟩ := weldMem_ok base w S h ⟨H.1, H.2⟩ ⟨fun a => by
    rw [List.perm_iff_count.1 howned a, List.count_append]
    rfl, hroom⟩
  refine ⟨h', S', h1, h4, h5, ?_, h2.nodup⟩
  rw [List.perm_iff_count]
  intro a
  rw [h3.owned a, List.count_append]
  rfl

/-- **C133** (surface): for every list of files, however many points and faces they have and whatever is welded, the surface that is handed to the mesher consists of allocated blocks, no two of them the same, and the blocks that were there
before are untouched. -/
theorem C133_surface (files : List ObjPlan) (w : WeldPlan) (h : Heap) (H : h.live.Nodup ∧ ∀ b ∈ h.live, b < h.next) (hne : files ≠ []) :
    ∃ h' S, readAllMem files w h = some (h', S) ∧ S.numFaces ≤ S.slots.length ∧ (S.points :: S.faces :: (S.pointBlocks ++ S.slots.take S.numFaces)).Nodup ∧
      h'.live.Perm (S.points :: S.faces :: (S.pointBlocks ++ S.slots.take S.numFaces) ++ h.live) := by
  obtain ⟨h', S, h1, h2, h3⟩ := readAllMem_ok files w h ⟨H.1, H.2⟩ hne
  have hp : h'.live.Perm (S.points :: S.faces :: (S.pointBlocks ++ S.slots.take S.numFaces) ++ h.live) := by
    rw [List.perm_iff_count]
    intro a
    rw [h3.owned a, List.count_append]
    rfl
  exact ⟨h', S, h1, h3.room, (List.nodup_append.1 (hp.nodup_iff.1 h2.nodup)).1, hp⟩

/-- **C133** (life): after `execute`, the memory is as it was before: every block of the surface was freed once.  Missing: this is false when the feature detection removes a degenerate face (`C133_removed_undefined`), which it does only
with a minimum radius. -/
theorem C133_life_partial (files : List ObjPlan) (w : WeldPlan) (h : Heap) (H : h.live.Nodup ∧ ∀ b ∈ h.live, b < h.next) (hne : files ≠ []) :
    ∃ h', surfaceLife files w none h = some h' ∧ h'.live.Perm h.live := by
  obtain ⟨h1, S, h2, _, h3⟩ := readAllMem_ok files w h ⟨H.1, H.2⟩ hne
  unfold surfaceLife
  rw [h2]
  simp only
  unfold freeSurface
  have hbal : ∀ a, h1.live.count a = (S.pointBlocks ++ [S.points] ++ (S.slots.take S.numFaces ++ [S.faces])).count a + h.live.count a := by
    intro a
    have e := h3.owned a
    simp only [surfBlocks, surfFaces, List.count_cons, List.count_append, List.count_nil] at e ⊢
    omega
  obtain ⟨r, hr1, hr2⟩ := freeBlocks_ok (S.pointBlocks ++ [S.points] ++ (S.slots.take S.numFaces ++ [S.faces])) h1.live (fun a => by have := hbal a; omega)
  rw [hr1]
  refine ⟨_, rfl, ?_⟩
  rw [List.perm_iff_count]
  intro a
  have e1 := hbal a
  have e2 := hr2 a
  simp only
  omega

/-- **C133** (removed): for every surface, if the feature detection removes one of its faces, whichever it is, `execute` frees a block twice at the end: the caller keeps the old number of faces. -/
theorem C133_removed_undefined (files : List ObjPlan) (w : WeldPlan) (h : Heap) (H : h.live.Nodup ∧ ∀ b ∈ h.live, b < h.next) (hne : files ≠ []) (i : Nat)
    (hi : ∀ h' S, readAllMem files w h = some (h', S) → i < S.numFaces) : surfaceLife files w (some i) h = none := by
  obtain ⟨h1, S, h2, h3, h4⟩ := readAllMem_ok files w h ⟨H.1, H.2⟩ hne
  have hi := hi h1 S h2
  have hroom := h4.room
  unfold surfaceLife
  rw [h2]
  simp only
  have hli : i < S.slots.length := by omega
  have hlc : S.numFaces - 1 < S.slots.length := by omega
  have hmi : S.slots[i] ∈ surfFaces S := by
    unfold surfFaces
    exact List.mem_take_iff_getElem.2 ⟨i, by rw [Nat.min_eq_left hroom]; exact hi, rfl⟩
  have hmc : S.slots[S.numFaces - 1] ∈ surfFaces S := by
    unfold surfFaces
    exact List.mem_take_iff_getElem.2 ⟨S.numFaces - 1, by rw [Nat.min_eq_left hroom]; omega, rfl⟩
  cases hr : removeFaceMem i S h1 with
  | none => rfl
  | some r =>
    obtain ⟨h5, T⟩ := r
    simp only
    unfold removeFaceMem at hr
    rw [List.getElem?_eq_getElem hli, List.getElem?_eq_getElem hlc] at hr
    simp only at hr
    cases hf : freeBlocks [S.slots[i]] h1.live with
    | none => rw [hf] at hr; cases hr
    | some live =>
      rw [hf] at hr
      simp only [Option.some.injEq, Prod.mk.injEq] at hr
      obtain ⟨rfl, rfl⟩ := hr
      obtain ⟨_, e1⟩ := freeBlocks_inv _ _ _ hf
      unfold freeSurface
      simp only
      cases hg : freeBlocks (S.pointBlocks ++ [S.points] ++ ((S.slots.set i S.slots[S.numFaces - 1]).take S.numFaces ++ [S.faces])) live with
      | none => rfl
      | some live2 =>
        exfalso
        obtain ⟨e2, _⟩ := freeBlocks_inv _ _ _ hg
        have hset : (S.slots.set i S.slots[S.numFaces - 1]).take S.numFaces = (surfFaces S).set i S.slots[S.numFaces - 1] := by
          unfold surfFaces
          rw [List.take_set]
        have hget : (surfFaces S)[i]? = some S.slots[i] := by
          unfold surfFaces
          rw [List.getElem?_take_of_lt hi, List.getElem?_eq_getElem hli]
        have hcnt := count_flatMap_set (fun b => [b]) S.slots[S.numFaces - 1] S.slots[i] S.slots[S.numFaces - 1] (surfFaces S) i hget
        simp only [List.flatMap_singleton'] at hcnt
        have e3 := e2 S.slots[S.numFaces - 1]
        have e4 := e1 S.slots[S.numFaces - 1]
        have hle : h1.live.count S.slots[S.numFaces - 1] ≤ 1 := List.nodup_iff_count_le_one.1 h3.nodup _
        have hpos : 0 < (surfFaces S).count S.slots[S.numFaces - 1] := List.count_pos_iff.2 hmc
        rw [hset] at e3
        simp only [List.count_append, List.count_cons, List.count_nil] at e3 hcnt e4
        by_cases hbc : S.slots[i] = S.slots[S.numFaces - 1]
        · rw [hbc] at hcnt e4
          simp only [beq_self_eq_true, if_true] at hcnt e4
          omega
        · have hbf : (S.slots[i] == S.slots[S.numFaces - 1]) = false := by simpa using hbc
          rw [hbf] at hcnt e4
          simp only [beq_self_eq_true, if_true, Bool.false_eq_true, if_false] at hcnt e4
          omega

/-- **C133** (no file): without a file `filenames[0]` is read, which is not there. -/
theorem C133_nofile_undefined (w : WeldPlan) (h : Heap) : surfaceLife [] w none h = none := rfl

/-- Two files: four points, three faces, one point welded and the first and the last face degenerate; two points without a face; one point welded after the merging. -/
example : (readAllMem [⟨4, 3, ⟨3, fun b => b == 6 || b == 8⟩⟩, ⟨2, 0, ⟨2, fun _ => false⟩⟩] ⟨4, fun _ => false⟩ ⟨0, []⟩).map (fun r => (r.2.pointBlocks.length, r.2.slots.take r.2.numFaces, r.1.live.length)) = some (4, [7], 7) := by decide

example : (surfaceLife [⟨4, 3, ⟨3, fun b => b == 6 || b == 8⟩⟩, ⟨2, 0, ⟨2, fun _ => false⟩⟩] ⟨4, fun _ => false⟩ none ⟨0, []⟩).map (·.live) = some [] := by decide

/-- Three points and two faces: nothing is lost; if the first face is removed, the second one is freed twice. -/
example : (surfaceLife [⟨3, 2, ⟨3, fun _ => false⟩⟩] ⟨3, fun _ => false⟩ none ⟨0, []⟩).map (·.live) = some [] ∧ (surfaceLife [⟨3, 2, ⟨3, fun _ => false⟩⟩] ⟨3, fun _ => false⟩ (some 0) ⟨0, []⟩).isNone = true := by decide

end VoroCrust
