import Verif.Model.FrontMemory
import Verif.Props.SurfaceMemory

/-!
# Properties of the memory of the interior seeding (C135)
-/

namespace VoroCrust

/-- New blocks are allocated and blocks that are there are freed. -/
theorem heap_step (h : Heap) (k : Nat) (l : List Nat) (H : HeapOk h) (hc : ∀ a, l.count a ≤ (freshIds h.next k).count a + h.live.count a) :
    ∃ r, freeBlocks l (freshIds h.next k ++ h.live) = some r ∧ HeapOk ⟨h.next + k, r⟩ ∧ ∀ a, r.count a + l.count a = (freshIds h.next k).count a + h.live.count a := by
  obtain ⟨r, hr, hrc⟩ := freeBlocks_ok l (freshIds h.next k ++ h.live) (fun a => by rw [List.count_append]; exact hc a)
  refine ⟨r, hr, heapOk_sub _ r (heapOk_alloc h k H) (freeBlocks_sublist _ _ _ hr), fun a => ?_⟩
  have h1 := hrc a
  have h2 := hc a
  rw [List.count_append] at h1
  omega

theorem heap_free (h : Heap) (l : List Nat) (H : HeapOk h) (hc : ∀ a, l.count a ≤ h.live.count a) :
    ∃ r, freeBlocks l h.live = some r ∧ HeapOk ⟨h.next, r⟩ ∧ ∀ a, r.count a + l.count a = h.live.count a := by
  obtain ⟨r, hr, hrc⟩ := freeBlocks_ok l h.live hc
  refine ⟨r, hr, heapOk_sub _ r H (freeBlocks_sublist _ _ _ hr), fun a => ?_⟩
  have h1 := hrc a
  have h2 := hc a
  omega

theorem growFound_ok : ∀ (k b cap num : Nat) (h : Heap), HeapOk h → num < cap → (∀ a, [b].count a ≤ h.live.count a) →
    ∃ h' b', growFound k b cap num h = some (h', b') ∧ HeapOk h' ∧ ∀ a, h'.live.count a + [b].count a = [b'].count a + h.live.count a := by
  intro k
  induction k with
  | zero => intro b cap num h H hn hb; exact ⟨h, b, rfl, H, fun a => Nat.add_comm _ _⟩
  | succ k ih =>
    intro b cap num h H hn hb
    have hm : b ∈ h.live := by
      have := hb b
      rw [List.count_singleton_self] at this
      exact List.count_pos_iff.mp this
    unfold growFound
    rw [if_pos ⟨hn, hm⟩]
    by_cases hc : num + 1 = cap
    · rw [if_pos hc]
      obtain ⟨r, hr, Hr, cr⟩ := heap_step h 1 [b] H (fun a => by have := hb a; omega)
      have e1 : freshIds h.next 1 = [h.next] := rfl
      rw [e1] at cr
      obtain ⟨h', b', e, H', c'⟩ := ih h.next (2 * cap) (num + 1) ⟨h.next + 1, r⟩ Hr (by omega) (fun a => by
        have h1 := cr a
        have h2 := hb a
        show _ ≤ r.count a
        omega)
      rw [hr]
      refine ⟨h', b', e, H', fun a => ?_⟩
      have h1 := cr a
      have h2 : _ = _ + r.count a := c' a
      omega
    · rw [if_neg hc]
      exact ih b cap (num + 1) h H (by omega) hb

theorem foundArray_ok (k : Nat) (h : Heap) (H : HeapOk h) : ∃ h' l, foundArray k h = some (h', l) ∧ HeapOk h' ∧ ∀ a, h'.live.count a = l.count a + h.live.count a := by
  have e1 : freshIds h.next 1 = [h.next] := rfl
  obtain ⟨h1, b, e, H1, c1⟩ := growFound_ok k h.next 10 0 ⟨h.next + 1, freshIds h.next 1 ++ h.live⟩ (heapOk_alloc h 1 H) (by omega) (fun a => by
    show _ ≤ (freshIds h.next 1 ++ h.live).count a
    rw [e1, List.count_append]
    omega)
  have c2 : ∀ a, h1.live.count a = [b].count a + h.live.count a := fun a => by
    have : _ = _ + (freshIds h.next 1 ++ h.live).count a := c1 a
    rw [e1, List.count_append] at this
    omega
  unfold foundArray
  rw [e]
  by_cases hk : k = 0
  · obtain ⟨r, hr, Hr, cr⟩ := heap_free h1 [b] H1 (fun a => by have := c2 a; omega)
    simp only
    rw [if_pos hk, hr]
    refine ⟨_, _, rfl, Hr, fun a => ?_⟩
    have h3 := c2 a
    have h4 := cr a
    show r.count a = _
    rw [List.count_nil]
    omega
  · simp only
    rw [if_neg hk]
    exact ⟨_, _, rfl, H1, c2⟩

theorem foundIf_ok (k : Option Nat) (h : Heap) (H : HeapOk h) : ∃ h' l, foundIf k h = some (h', l) ∧ HeapOk h' ∧ ∀ a, h'.live.count a = l.count a + h.live.count a := by
  cases k with
  | none => exact ⟨h, [], rfl, H, fun a => by rw [List.count_nil]; omega⟩
  | some k => exact foundArray_ok k h H

theorem activeSeed_ok (f : SeedFound) (h : Heap) (H : HeapOk h) : ∃ h' row, activeSeed f h = some (h', row) ∧ HeapOk h' ∧ ∀ a, h'.live.count a = [row].count a + h.live.count a := by
  have e1 : freshIds h.next 1 = [h.next] := rfl
  obtain ⟨h1, ns, e1', H1, c1⟩ := foundArray_ok f.seeds ⟨h.next + 1, freshIds h.next 1 ++ h.live⟩ (heapOk_alloc h 1 H)
  obtain ⟨h2, is, e2, H2, c2⟩ := foundIf_ok f.interior h1 H1
  obtain ⟨h3, ss, e3, H3, c3⟩ := foundIf_ok f.surface h2 H2
  obtain ⟨h4, es, e4, H4, c4⟩ := foundIf_ok f.edge h3 H3
  obtain ⟨h5, cs, e5, H5, c5⟩ := foundIf_ok f.corner h4 H4
  have c : ∀ a, h5.live.count a = cs.count a + (es.count a + (ss.count a + (is.count a + (ns.count a + ([h.next].count a + h.live.count a))))) := fun a => by
    have hx : h1.live.count a = ns.count a + (freshIds h.next 1 ++ h.live).count a := c1 a
    rw [e1, List.count_append] at hx
    rw [c5, c4, c3, c2, hx]
  obtain ⟨r, hr, Hr, cr⟩ := heap_step h5 3 (ss ++ es ++ cs) H5 (fun a => by
    rw [c a, List.count_append, List.count_append]
    omega)
  have e6 : freshIds h5.next 3 = [h5.next, h5.next + 1, h5.next + 2] := rfl
  obtain ⟨l, hl, Hl, cl⟩ := heap_free ⟨h5.next + 3, r⟩ (is ++ [h.next, h5.next + 1, h5.next] ++ ns) Hr (fun a => by
    have h1 := cr a
    rw [c a, e6] at h1
    show _ ≤ r.count a
    simp only [List.count_append, List.count_cons, List.count_nil] at h1 ⊢
    omega)
  unfold activeSeed
  simp only
  rw [e1']
  simp only
  rw [e2]
  simp only
  rw [e3]
  simp only
  rw [e4]
  simp only
  rw [e5]
  simp only
  rw [hr]
  simp only
  rw [show freeBlocks (is ++ [h.next, h5.next + 1, h5.next] ++ ns) r = some l from hl]
  refine ⟨_, _, rfl, Hl, fun a => ?_⟩
  have h1 := cr a
  have h2 : l.count a + _ = r.count a := cl a
  rw [c a, e6] at h1
  show l.count a = _
  simp only [List.count_append, List.count_cons, List.count_nil] at h1 h2 ⊢
  omega

theorem activeSeeds_ok : ∀ (fs : List SeedFound) (h : Heap), HeapOk h → ∃ h' rows, activeSeeds fs h = some (h', rows) ∧ HeapOk h' ∧ ∀ a, h'.live.count a = rows.count a + h.live.count a := by
  intro fs
  induction fs with
  | nil => intro h H; exact ⟨h, [], rfl, H, fun a => by rw [List.count_nil]; omega⟩
  | cons f fs ih =>
    intro h H
    obtain ⟨h1, row, e1, H1, c1⟩ := activeSeed_ok f h H
    obtain ⟨h2, rows, e2, H2, c2⟩ := ih h1 H1
    unfold activeSeeds
    rw [e1]
    simp only
    rw [e2]
    refine ⟨_, _, rfl, H2, fun a => ?_⟩
    have h3 := c1 a
    have h4 := c2 a
    rw [List.count_cons]
    rw [List.count_cons, List.count_nil] at h3
    omega

theorem startRound_ok (fs : List SeedFound) (F : FrontMem) (h : Heap) (base : List Nat) (H : HeapOk h) (hb : ∀ a, h.live.count a = (F.front :: base).count a) :
    ∃ h' R, startRound fs F h = some (h', R) ∧ HeapOk h' ∧ ∀ a, h'.live.count a = (R.inactive :: R.done).count a + base.count a := by
  have e2 : ∀ m, freshIds m 2 = [m, m + 1] := fun m => rfl
  obtain ⟨r, hr, Hr, hrc⟩ := heap_step h 2 [h.next + 1] H (fun a => by
    rw [e2, List.count_cons, List.count_cons, List.count_cons]
    omega)
  obtain ⟨s, hs, Hs, hsc⟩ := heap_step ⟨h.next + 2, r⟩ 2 [h.next, F.front] Hr (fun a => by
    have h1 := hrc a
    have h2 := hb a
    rw [e2] at h1 ⊢
    simp only [List.count_cons, List.count_nil] at h1 h2 ⊢
    omega)
  obtain ⟨h1, rows, e1, H1, c1⟩ := activeSeeds_ok fs ⟨h.next + 6, freshIds (h.next + 4) 2 ++ s⟩ (heapOk_alloc _ 2 Hs)
  unfold startRound
  rw [hr]
  simp only
  rw [hs]
  simp only
  rw [e1]
  refine ⟨_, _, rfl, H1, fun a => ?_⟩
  have h1 := hrc a
  have h2 := hb a
  have h3 := hsc a
  have h4 : _ = _ + (freshIds (h.next + 4) 2 ++ s).count a := c1 a
  rw [h4]
  show _ = (_ :: (_ :: rows ++ [h.next + 5, h.next + 4])).count a + _
  rw [e2] at h1 h3 ⊢
  have e3 : h.next + 2 + 1 = h.next + 3 := rfl
  have e4 : h.next + 4 + 1 = h.next + 5 := rfl
  simp only [List.count_cons, List.count_nil, List.count_append, List.cons_append, e3, e4] at h1 h2 h3 ⊢
  omega

theorem renewSeeds_ok (F : FrontMem) (h : Heap) (base : List Nat) (H : HeapOk h) (hb : ∀ a, h.live.count a = (F.seeds ++ F.tree).count a + base.count a) :
    ∃ h' F', renewSeeds F h = some (h', F') ∧ HeapOk h' ∧ (∀ a, h'.live.count a = (F'.seeds ++ F'.tree).count a + base.count a) ∧ F'.front = F.front ∧ F'.interior = F.interior ∧ F'.seeds.length = 3 := by
  obtain ⟨r, hr, Hr, hrc⟩ := heap_step h 3 F.seeds H (fun a => by
    have h2 := hb a
    rw [List.count_append] at h2
    omega)
  obtain ⟨s, hs, Hs, hsc⟩ := heap_step ⟨h.next + 3, r⟩ 5 F.tree Hr (fun a => by
    have h1 := hrc a
    have h2 := hb a
    rw [List.count_append] at h2
    show _ ≤ _ + r.count a
    omega)
  unfold renewSeeds
  rw [hr]
  simp only
  rw [hs]
  refine ⟨_, _, rfl, Hs, fun a => ?_, rfl, rfl, rfl⟩
  have h1 := hrc a
  have h2 := hb a
  have h3 := hsc a
  show s.count a = (freshIds h.next 3 ++ freshIds (h.next + 3) 5).count a + _
  rw [List.count_append] at h2 ⊢
  have h4 : s.count a + F.tree.count a = (freshIds (h.next + 3) 5).count a + r.count a := h3
  omega

theorem sortedSizesMem_ok (h : Heap) (H : HeapOk h) : ∃ h', sortedSizesMem h = some h' ∧ HeapOk h' ∧ (∀ a, h'.live.count a = h.live.count a) ∧ h.next ≤ h'.next := by
  have e1 : freshIds h.next 1 = [h.next] := rfl
  obtain ⟨r, hr, Hr, hrc⟩ := heap_step h 1 [h.next] H (fun a => by rw [e1]; omega)
  unfold sortedSizesMem
  rw [hr]
  refine ⟨_, rfl, Hr, fun a => ?_, Nat.le_succ _⟩
  have h1 := hrc a
  rw [e1] at h1
  show r.count a = _
  omega

/-- What the loop has between two rounds, in a heap where the other blocks are `base`. -/
structure FrontOk (base : List Nat) (F : FrontMem) (h : Heap) : Prop where
  heap : HeapOk h
  owned : ∀ a, h.live.count a = (F.front :: (F.seeds ++ F.tree ++ F.interior)).count a + base.count a
  three : F.seeds.length = 3

theorem frontMemRound_ok (base : List Nat) (r : FrontRound) (F : FrontMem) (h : Heap) (O : FrontOk base F h) : ∃ h' F', frontMemRound r F h = some (h', F') ∧ FrontOk base F' h' := by
  have e1 : ∀ m, freshIds m 1 = [m] := fun m => rfl
  obtain ⟨h1, R, hs, H1, c1⟩ := startRound_ok r.active F h (F.seeds ++ F.tree ++ F.interior ++ base) O.heap (fun a => by
    have := O.owned a
    simp only [List.count_cons, List.count_append] at this ⊢
    omega)
  have hnew : ∃ l, freeBlocks (R.inactive :: R.done) (freshIds h1.next 1 ++ h1.live) = some l ∧ HeapOk ⟨h1.next + 1, l⟩ ∧
      ∀ a, l.count a + (R.inactive :: R.done).count a = (freshIds h1.next 1).count a + h1.live.count a :=
    heap_step h1 1 _ H1 (fun a => by have := c1 a; omega)
  unfold frontMemRound
  rw [hs]
  cases r with
  | quiet n =>
    obtain ⟨l, hl, Hl, cl⟩ := heap_free h1 R.done H1 (fun a => by
      have := c1 a
      rw [List.count_cons] at this
      omega)
    simp only
    rw [hl]
    refine ⟨_, _, rfl, Hl, fun a => ?_, O.three⟩
    have h2 := cl a
    have h3 := c1 a
    show l.count a = _
    simp only [List.count_cons, List.count_append] at h2 h3 ⊢
    omega
  | room n =>
    obtain ⟨l, hl, Hl, cl⟩ := hnew
    simp only
    rw [hl]
    refine ⟨_, _, rfl, Hl, fun a => ?_, O.three⟩
    have h2 := cl a
    have h3 := c1 a
    rw [e1] at h2
    show l.count a = _
    simp only [List.count_cons, List.count_nil, List.count_append] at h2 h3 ⊢
    omega
  | flush n lip =>
    obtain ⟨l, hl, Hl, cl⟩ := hnew
    simp only
    rw [hl]
    simp only
    obtain ⟨h2, F2, hr, H2, c2, hf, hi, h3⟩ := renewSeeds_ok { F with front := h1.next } ⟨h1.next + 1, l⟩ (h1.next :: (F.interior ++ base)) Hl (fun a => by
      have h2 := cl a
      have h3 := c1 a
      rw [e1] at h2
      show l.count a = (F.seeds ++ F.tree).count a + _
      simp only [List.count_cons, List.count_nil, List.count_append] at h2 h3 ⊢
      omega)
    rw [hr]
    have hok : ∀ h' : Heap, HeapOk h' → (∀ a, h'.live.count a = h2.live.count a) → FrontOk base F2 h' := fun h' H' hc => ⟨H', fun a => by
      have h4 := c2 a
      rw [hc a, h4, hf, hi]
      simp only [List.count_cons, List.count_append]
      omega, h3⟩
    cases lip with
    | false => exact ⟨_, _, rfl, hok h2 H2 (fun _ => rfl)⟩
    | true =>
      obtain ⟨h4, hs4, H4, c4, -⟩ := sortedSizesMem_ok h2 H2
      simp only [if_true]
      rw [hs4]
      exact ⟨_, _, rfl, hok h4 H4 c4⟩

theorem frontMemRounds_ok (base : List Nat) : ∀ (rs : List FrontRound) (F : FrontMem) (h : Heap), FrontOk base F h → ∃ h' F', frontMemRounds rs F h = some (h', F') ∧ FrontOk base F' h' := by
  intro rs
  induction rs with
  | nil => intro F h O; exact ⟨h, F, rfl, O⟩
  | cons r rs ih =>
    intro F h O
    obtain ⟨h1, F1, e, O1⟩ := frontMemRound_ok base r F h O
    unfold frontMemRounds
    rw [e]
    exact ih F1 h1 O1

theorem lastRound_ok (base : List Nat) (fs : List SeedFound) (w : Bool) (F : FrontMem) (h : Heap) (O : FrontOk base F h) :
    ∃ h' s b, lastRound fs w F h = some (h', s) ∧ HeapOk h' ∧ s.length = 3 ∧ ∀ a, h'.live.count a = (b :: s ++ base).count a := by
  obtain ⟨h1, R, hs, H1, c1⟩ := startRound_ok fs F h (F.seeds ++ F.tree ++ F.interior ++ base) O.heap (fun a => by
    have := O.owned a
    simp only [List.count_cons, List.count_append] at this ⊢
    omega)
  have hw : ∃ h2 F2, (if w then renewSeeds F h1 else some (h1, F)) = some (h2, F2) ∧ HeapOk h2 ∧ F2.seeds.length = 3 ∧
      ∀ a, h2.live.count a = (R.inactive :: R.done).count a + (F2.seeds ++ F2.tree ++ F2.interior ++ base).count a := by
    cases w with
    | false => exact ⟨h1, F, rfl, H1, O.three, c1⟩
    | true =>
      obtain ⟨h2, F2, hr, H2, c2, -, hi, h3⟩ := renewSeeds_ok F h1 (R.inactive :: R.done ++ F.interior ++ base) H1 (fun a => by
        have := c1 a
        simp only [List.count_cons, List.count_append, List.cons_append] at this ⊢
        omega)
      refine ⟨h2, F2, hr, H2, h3, fun a => ?_⟩
      have := c2 a
      rw [hi]
      simp only [List.count_cons, List.count_append, List.cons_append] at this ⊢
      omega
  obtain ⟨h2, F2, e2, H2, l2, c2⟩ := hw
  obtain ⟨l, hl, Hl, cl⟩ := heap_free h2 R.done H2 (fun a => by
    have := c2 a
    rw [List.count_cons] at this
    omega)
  obtain ⟨h4, hs4, H4, c4, -⟩ := sortedSizesMem_ok _ Hl
  obtain ⟨m, hm, Hm, cm⟩ := heap_free h4 (F2.tree ++ F2.interior) H4 (fun a => by
    have h2 := c2 a
    have h3 := cl a
    have h5 : h4.live.count a = l.count a := c4 a
    simp only [List.count_cons, List.count_append] at h2 h3 h5 ⊢
    omega)
  unfold lastRound
  rw [hs]
  simp only
  rw [e2]
  simp only
  rw [hl]
  simp only
  rw [hs4]
  simp only
  rw [hm]
  refine ⟨_, _, R.inactive, rfl, Hm, l2, fun a => ?_⟩
  have h2 := c2 a
  have h3 := cl a
  have h5 : h4.live.count a = l.count a := c4 a
  have h6 := cm a
  show m.count a = _
  simp only [List.count_cons, List.count_append, List.cons_append] at h2 h3 h5 h6 ⊢
  omega

theorem seedingLife_ok (seeds base : List Nat) (rs : List FrontRound) (fs : List SeedFound) (w : Bool) (h : Heap) (H : HeapOk h) (h3 : seeds.length = 3) (hb : h.live.Perm (seeds ++ base)) :
    ∃ h' s b, seedingLife seeds rs fs w h = some (h', s) ∧ HeapOk h' ∧ s.length = 3 ∧ ∀ a, h'.live.count a = (b :: s ++ base).count a := by
  obtain ⟨h1, e1, H1, c1, -⟩ := sortedSizesMem_ok _ (heapOk_alloc h 5 H)
  have O : FrontOk base ⟨h1.next, seeds, freshIds h.next 5, freshIds (h1.next + 1) 2⟩ ⟨h1.next + 3, freshIds h1.next 3 ++ h1.live⟩ := by
    refine ⟨heapOk_alloc h1 3 H1, fun a => ?_, h3⟩
    have h2 : h1.live.count a = (freshIds h.next 5 ++ h.live).count a := c1 a
    have h4 := (List.perm_iff_count.mp hb) a
    have h5 : freshIds h1.next 3 = h1.next :: freshIds (h1.next + 1) 2 := rfl
    show (freshIds h1.next 3 ++ h1.live).count a = (h1.next :: (seeds ++ freshIds h.next 5 ++ freshIds (h1.next + 1) 2)).count a + _
    rw [h5]
    simp only [List.count_cons, List.count_append, List.cons_append] at h2 h4 ⊢
    omega
  obtain ⟨h2, F2, e2, O2⟩ := frontMemRounds_ok base rs _ _ O
  obtain ⟨h4, s, b, e4, H4, l4, c4⟩ := lastRound_ok base fs w F2 h2 O2
  refine ⟨h4, s, b, ?_, H4, l4, c4⟩
  unfold seedingLife
  simp only
  rw [e1]
  simp only
  rw [e2]
  exact e4

/-- C135, what is proven of it.  Whatever happens in the rounds of the interior seeding, no array is freed twice, the seeds that it gives back are three arrays, and all other memory is as before - but for one block, which is none of these.
Missing is that there is no such block, see `C135_lost`. -/
theorem C135_seeding_partial (seeds base : List Nat) (rs : List FrontRound) (fs : List SeedFound) (w : Bool) (h : Heap) (H : h.live.Nodup ∧ ∀ b ∈ h.live, b < h.next) (h3 : seeds.length = 3) (hb : h.live.Perm (seeds ++ base)) :
    ∃ h' s b, seedingLife seeds rs fs w h = some (h', s) ∧ s.length = 3 ∧ h'.live.Perm (b :: s ++ base) ∧ b ∉ s ∧ b ∉ base ∧ (∀ x ∈ s, x ∉ base) ∧ s.Nodup := by
  obtain ⟨h', s, b, e, H', l, c⟩ := seedingLife_ok seeds base rs fs w h ⟨H.1, H.2⟩ h3 hb
  have hp : h'.live.Perm (b :: s ++ base) := List.perm_iff_count.mpr c
  have hn : (b :: (s ++ base)).Nodup := hp.nodup_iff.mp H'.nodup
  rw [List.nodup_cons, List.mem_append, List.nodup_append] at hn
  exact ⟨h', s, b, e, l, hp, fun x => hn.1 (Or.inl x), fun x => hn.1 (Or.inr x), fun x hx hx' => hn.2.2.2 x hx x hx' rfl, hn.2.1⟩

/-- C135 is false of the code: every run of the interior seeding loses a block, the empty array of the inactive seeds of the last round. -/
theorem C135_lost (seeds base : List Nat) (rs : List FrontRound) (fs : List SeedFound) (w : Bool) (h : Heap) (H : h.live.Nodup ∧ ∀ b ∈ h.live, b < h.next) (h3 : seeds.length = 3) (hb : h.live.Perm (seeds ++ base)) :
    ¬ ∃ h' s, seedingLife seeds rs fs w h = some (h', s) ∧ h'.live.Perm (s ++ base) := by
  rintro ⟨h', s, e, hp⟩
  obtain ⟨h'', s', b, e', -, hp', -⟩ := C135_seeding_partial seeds base rs fs w h H h3 hb
  rw [e] at e'
  cases e'
  have h1 := hp.length_eq
  have h2 := hp'.length_eq
  simp only [List.length_append, List.length_cons] at h1 h2
  omega

/-- A run with a round of each kind, and arrays of neighbours that grow, that stay and that are empty. -/
example : ∃ h' s b, seedingLife [0, 1, 2] [.room [⟨2, none, none, none, none⟩, ⟨1, none, some 25, some 0, none⟩], .quiet [⟨4, some 3, some 2, none, some 0⟩], .flush [⟨31, some 0, some 10, some 20, some 1⟩] true, .flush [] false] [⟨1, some 2, none, none, none⟩] true ⟨4, [3, 2, 1, 0]⟩ = some (h', s) ∧ s.length = 3 ∧ h'.live.Perm (b :: s ++ [3]) ∧ b ∉ s ∧ b ∉ [3] ∧ (∀ x ∈ s, x ∉ [3]) ∧ s.Nodup :=
  C135_seeding_partial [0, 1, 2] [3] _ _ _ _ ⟨by decide, by decide⟩ rfl (by decide)

end VoroCrust
