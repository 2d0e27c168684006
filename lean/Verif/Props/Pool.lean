import Verif.Model.Pool
import Mathlib.Data.List.Induction
import Mathlib.Tactic.Ring
import Mathlib.Tactic.Linarith
import Mathlib.Logic.Function.Iterate

/-! # Properties of the active pool: C32, C33, C34 -/

namespace VoroCrust

variable {V W α β : Type}

/-! ## C33 -/

theorem decodeFace_take (mid : V → V → V) (bits : List Bool) (k : Corners6 V) (n : Nat) (tail : List Bool) (h : 2 * n ≤ bits.length) :
    ∀ m, m ≤ n → decodeFace mid (bits.take (2 * n) ++ tail) k m = decodeFace mid bits k m
  | 0, _ => rfl
  | m + 1, hm => by
    have e : ∀ j, j < 2 * n → (bits.take (2 * n) ++ tail)[j]? = bits[j]? := by
      intro j hj
      rw [List.getElem?_append_left (by rw [List.length_take]; omega), List.getElem?_take_of_lt hj]
    rw [decodeFace, decodeFace, decodeFace_take mid bits k n tail h m (by omega), e (2 * m) (by omega), e (2 * m + 1) (by omega)]

theorem decodeFace_bits {mid : V → V → V} {bits : List Bool} {k k' : Corners6 V} {n : Nat} (h : decodeFace mid bits k n = some k') :
    2 * n ≤ bits.length := by
  induction n generalizing k' with
  | zero => omega
  | succ n ih =>
    rw [decodeFace] at h
    split at h
    · rename_i e1 e2 e3
      have := (List.getElem?_eq_some_iff.1 e3).1
      omega
    · simp at h

/-- The three midpoints are current in every decoded state. -/
theorem decodeFace_mids {mid : V → V → V} {bits : List Bool} {k k' : Corners6 V} {n : Nat} (hk : k = Corners6.mids mid k)
    (h : decodeFace mid bits k n = some k') : k' = Corners6.mids mid k' := by
  induction n generalizing k' with
  | zero => rw [decodeFace] at h; rw [← Option.some.inj h]; exact hk
  | succ n ih =>
    rw [decodeFace] at h
    split at h
    · rename_i b0 b1 e1 e2 e3
      rw [← Option.some.inj h]
      cases b0 <;> cases b1 <;> rfl
    · simp at h

/-- **C33, faces.** If a pool slot decodes at level `n` (to the triangle `A B C` and its midpoints), refining it gives four
slots of the same face; at level `n + 1` they decode to the four triangles cut off by the midpoints, in the order
corner `A`, corner `B`, corner `C`, middle, and each is stored with its own area. -/
theorem C33_face_codes (mid : V → V → V) (area : V → V → V → W) (S : PoolSurface V) (n : Nat) (e : PoolEntry W) (k : Corners6 V)
    (h : faceCorners mid S n e = some k) :
    ∃ A B C e₀ e₁ e₂ e₃, k = ⟨A, B, C, mid A B, mid B C, mid C A⟩ ∧ refineFace area n e k = some [e₀, e₁, e₂, e₃] ∧
      (∀ x ∈ [(e₀, A, mid A B, mid C A), (e₁, mid A B, B, mid B C), (e₂, mid C A, mid B C, C), (e₃, mid A B, mid B C, mid C A)],
        x.1.parent = e.parent ∧ x.1.weight = area x.2.1 x.2.2.1 x.2.2.2 ∧
        faceCorners mid S (n + 1) x.1 =
          some ⟨x.2.1, x.2.2.1, x.2.2.2, mid x.2.1 x.2.2.1, mid x.2.2.1 x.2.2.2, mid x.2.2.2 x.2.1⟩) := by
  unfold faceCorners at h
  split at h
  · rename_i a b c ha hb hc
    have hlen := decodeFace_bits h
    have hm := decodeFace_mids rfl h
    have child : ∀ b0 b1, ∃ x, childEntry area n e k (b0, b1) = some x ∧ x.parent = e.parent ∧
        x.weight = area (childCorners k b0 b1).1 (childCorners k b0 b1).2.1 (childCorners k b0 b1).2.2 ∧
        faceCorners mid S (n + 1) x = some (k.descend mid b0 b1) := by
      intro b0 b1
      refine ⟨⟨e.parent, e.bits.take (2 * n) ++ [b0, b1], area (childCorners k b0 b1).1 (childCorners k b0 b1).2.1 (childCorners k b0 b1).2.2⟩,
        by unfold childEntry; rw [if_pos hlen], rfl, rfl, ?_⟩
      unfold faceCorners
      simp only [ha, hb, hc]
      rw [decodeFace, decodeFace_take mid e.bits _ n [b0, b1] hlen n le_rfl, h]
      have l1 : (e.bits.take (2 * n)).length = 2 * n := by rw [List.length_take]; omega
      rw [List.getElem?_append_right (by omega), List.getElem?_append_right (by omega), l1]
      simp
    obtain ⟨x0, a0, b0, c0, d0⟩ := child false false
    obtain ⟨x1, a1, b1, c1, d1⟩ := child false true
    obtain ⟨x2, a2, b2, c2, d2⟩ := child true false
    obtain ⟨x3, a3, b3, c3, d3⟩ := child true true
    obtain ⟨k0, k1, k2, k3, k4, k5⟩ := k
    simp only [Corners6.mids, Corners6.mk.injEq, true_and] at hm
    obtain ⟨h3, h4, h5⟩ := hm
    subst h3 h4 h5
    refine ⟨k0, k1, k2, x0, x1, x2, x3, rfl, by unfold refineFace; rw [a0, a1, a2, a3], ?_⟩
    intro x hx
    simp only [List.mem_cons, List.not_mem_nil, or_false] at hx
    rcases hx with rfl | rfl | rfl | rfl
    · exact ⟨b0, c0, d0⟩
    · exact ⟨b1, c1, d1⟩
    · exact ⟨b2, c2, d2⟩
    · exact ⟨b3, c3, d3⟩
  · simp at h

/-- **C33, start.** A slot of the initial pool decodes at level 0 to the corners of its face. -/
theorem C33_face_start (mid : V → V → V) (S : PoolSurface V) (e : PoolEntry W) (hf : e.parent < S.numFaces)
    (hc : ∀ i, i < 3 → S.corner e.parent i < S.numPoints) :
    ∃ A B C, A = S.point (S.corner e.parent 0) ∧ B = S.point (S.corner e.parent 1) ∧ C = S.point (S.corner e.parent 2) ∧
      faceCorners mid S 0 e = some ⟨A, B, C, mid A B, mid B C, mid C A⟩ := by
  refine ⟨_, _, _, rfl, rfl, rfl, ?_⟩
  unfold faceCorners PoolSurface.at
  rw [if_pos ⟨hf, hc 0 (by omega)⟩, if_pos ⟨hf, hc 1 (by omega)⟩, if_pos ⟨hf, hc 2 (by omega)⟩]
  rfl

theorem decodeEdge_take (mid : V → V → V) (bits : List Bool) (k : Corners3 V) (n : Nat) (tail : List Bool) (h : n ≤ bits.length) :
    ∀ m, m ≤ n → decodeEdge mid (bits.take n ++ tail) k m = decodeEdge mid bits k m
  | 0, _ => rfl
  | m + 1, hm => by
    rw [decodeEdge, decodeEdge, decodeEdge_take mid bits k n tail h m (by omega),
      List.getElem?_append_left (by rw [List.length_take]; omega), List.getElem?_take_of_lt (by omega)]

theorem decodeEdge_bits {mid : V → V → V} {bits : List Bool} {k k' : Corners3 V} {n : Nat} (h : decodeEdge mid bits k n = some k') :
    n ≤ bits.length := by
  cases n with
  | zero => omega
  | succ n =>
    rw [decodeEdge] at h
    split at h
    · rename_i e1 e2
      exact (List.getElem?_eq_some_iff.1 e2).1
    · simp at h

theorem decodeEdge_mids {mid : V → V → V} {bits : List Bool} {k k' : Corners3 V} {n : Nat} (hk : k.c2 = mid k.c0 k.c1)
    (h : decodeEdge mid bits k n = some k') : k'.c2 = mid k'.c0 k'.c1 := by
  cases n with
  | zero => rw [decodeEdge] at h; rw [← Option.some.inj h]; exact hk
  | succ n =>
    rw [decodeEdge] at h
    split at h
    · rename_i b e1 e2
      rw [← Option.some.inj h]
      cases b <;> rfl
    · simp at h

/-- **C33, edges.** The same for sharp edges: the children decode to the two halves. -/
theorem C33_edge_codes (mid : V → V → V) (len : V → V → W) (S : PoolSurface V) (n : Nat) (e : PoolEntry W) (k : Corners3 V)
    (h : edgeCorners mid S n e = some k) :
    ∃ A B e₀ e₁, k = ⟨A, B, mid A B⟩ ∧ refineEdge len n e k = some [e₀, e₁] ∧
      (∀ x ∈ [(e₀, A, mid A B), (e₁, mid A B, B)], x.1.parent = e.parent ∧ x.1.weight = len x.2.1 x.2.2 ∧
        edgeCorners mid S (n + 1) x.1 = some ⟨x.2.1, x.2.2, mid x.2.1 x.2.2⟩) := by
  unfold edgeCorners at h
  split at h
  · rename_i a b ha hb
    have hlen := decodeEdge_bits h
    have hm := decodeEdge_mids rfl h
    have child : ∀ b, ∃ x, childEdge len n e k b = some x ∧ x.parent = e.parent ∧
        x.weight = len (if b then k.c2 else k.c0) (if b then k.c1 else k.c2) ∧
        edgeCorners mid S (n + 1) x = some (k.descend mid b) := by
      intro b
      refine ⟨⟨e.parent, e.bits.take n ++ [b], len (if b then k.c2 else k.c0) (if b then k.c1 else k.c2)⟩,
        by unfold childEdge; rw [if_pos hlen]; cases b <;> rfl, rfl, rfl, ?_⟩
      unfold edgeCorners
      simp only [ha, hb]
      rw [decodeEdge, decodeEdge_take mid e.bits _ n [b] hlen n le_rfl, h]
      have l1 : (e.bits.take n).length = n := by rw [List.length_take]; omega
      rw [List.getElem?_append_right (by omega), l1]
      simp
    obtain ⟨x0, a0, b0, c0, d0⟩ := child false
    obtain ⟨x1, a1, b1, c1, d1⟩ := child true
    obtain ⟨k0, k1, k2⟩ := k
    dsimp only at hm
    subst hm
    refine ⟨k0, k1, x0, x1, rfl, by unfold refineEdge; rw [a0, a1], ?_⟩
    intro x hx
    simp only [List.mem_cons, List.not_mem_nil, or_false] at hx
    rcases hx with rfl | rfl
    · exact ⟨b0, c0, d0⟩
    · exact ⟨b1, c1, d1⟩
  · simp at h

/-- **C33, start for edges.** The initial pool has one slot per edge, in order, each stored with its own length and decoding at
level 0 to the two ends. -/
theorem C33_edge_start (mid : V → V → V) (len : V → V → W) (S : PoolSurface V) (hc : ∀ e i, e < S.numFaces → i < 2 → S.corner e i < S.numPoints)
    (n : Nat) (hn : n ≤ S.numFaces) :
    ∃ pool, initialEdges len S n = some pool ∧ pool.length = n ∧
      ∀ e, e < n → ∃ x A B, pool[e]? = some x ∧ A = S.point (S.corner e 0) ∧ B = S.point (S.corner e 1) ∧
        x.parent = e ∧ x.weight = len A B ∧ edgeCorners mid S 0 x = some ⟨A, B, mid A B⟩ := by
  induction n with
  | zero => exact ⟨[], rfl, rfl, fun e he => by omega⟩
  | succ n ih =>
    obtain ⟨pool, e, hl, h⟩ := ih (by omega)
    have hat : ∀ i, i < 2 → S.at n i = some (S.point (S.corner n i)) := fun i hi => by
      unfold PoolSurface.at; rw [if_pos ⟨by omega, hc n i (by omega) hi⟩]
    refine ⟨pool ++ [⟨n, [], len (S.point (S.corner n 0)) (S.point (S.corner n 1))⟩], by
      rw [initialEdges, e, hat 0 (by omega), hat 1 (by omega)], by simp [hl], fun f hf => ?_⟩
    by_cases hfn : f = n
    · subst hfn
      refine ⟨⟨f, [], len (S.point (S.corner f 0)) (S.point (S.corner f 1))⟩, _, _, ?_, rfl, rfl, rfl, rfl, ?_⟩
      · rw [List.getElem?_append_right (by omega), hl]; simp
      · unfold edgeCorners
        simp only [hat 0 (by omega), hat 1 (by omega)]
        rfl
    · obtain ⟨x, A, B, h1, h2⟩ := h f (by omega)
      exact ⟨x, A, B, by rw [List.getElem?_append_left (by omega)]; exact h1, h2⟩

-- one face (0, 0), (8, 0), (0, 8); the second sub-triangle of the middle one
example : faceCorners (fun a b : Int × Int => ((a.1 + b.1) / 2, (a.2 + b.2) / 2))
    ⟨3, fun i => if i = 0 then (0, 0) else if i = 1 then (8, 0) else (0, 8), 1, fun _ i => i⟩ 2
    (⟨0, [true, true, false, true], ()⟩ : PoolEntry Unit) = some ⟨(4, 2), (4, 4), (2, 4), (4, 3), (3, 4), (3, 3)⟩ := by rfl

-- a slot with too few bits is outside the hypothesis
example : faceCorners (fun a b : Int × Int => ((a.1 + b.1) / 2, (a.2 + b.2) / 2))
    ⟨3, fun i => if i = 0 then (0, 0) else if i = 1 then (8, 0) else (0, 8), 1, fun _ i => i⟩ 2
    (⟨0, [true, true], ()⟩ : PoolEntry Unit) = none := by rfl

/-! ## C32 -/

theorem runSched_eq {σ : Type} (step : Nat → σ → σ) (sched : List Nat) (st : Nat → σ) (t : Nat) :
    runSched step sched st t = (step t)^[sched.count t] (st t) := by
  induction sched generalizing st with
  | nil => rfl
  | cons u us ih =>
    rw [runSched, ih, List.count_cons]
    by_cases h : t = u
    · subst h
      simp [Function.iterate_succ_apply]
    · rw [if_neg h]
      simp [Ne.symm h]

theorem refineSeq_append (f : α → Option (List β)) (l r : List α) :
    refineSeq f (l ++ r) = match refineSeq f l, refineSeq f r with
      | some a, some b => some (a ++ b)
      | _, _ => none := by
  induction l with
  | nil => rw [List.nil_append, refineSeq]; cases refineSeq f r <;> rfl
  | cons e l ih =>
    rw [List.cons_append, refineSeq, refineSeq, ih]
    cases f e <;> cases refineSeq f l <;> cases refineSeq f r <;> simp

theorem refineSeq_single (f : α → Option (List β)) (e : α) : refineSeq f [e] = f e := by
  simp only [refineSeq]
  cases f e <;> simp

/-- The faces thread `t` works on when each thread gets `c`. -/
def chunkOf (pool : List α) (c t : Nat) : List α := (pool.drop (t * c)).take c

theorem threadStep_iterate (f : α → Option (List β)) (pool : List α) (c t n : Nat) :
    (threadStep f pool c t)^[n] (0, some []) = (min n c, refineSeq f ((pool.drop (t * c)).take (min n c))) := by
  induction n with
  | zero => simp [refineSeq]
  | succ n ih =>
    rw [Function.iterate_succ_apply', ih]
    unfold threadStep
    simp only
    by_cases h : n < c
    · rw [if_pos (by omega), show min n c = n by omega, show min (n + 1) c = n + 1 by omega]
      rcases hp : pool[t * c + n]? with _ | e
      · simp only [Prod.mk.injEq, true_and]
        have : pool.length ≤ t * c + n := by rw [List.getElem?_eq_none_iff] at hp; exact hp
        rw [List.take_of_length_le (by rw [List.length_drop]; omega), List.take_of_length_le (by rw [List.length_drop]; omega)]
      · have e2 : (pool.drop (t * c)).take (n + 1) = (pool.drop (t * c)).take n ++ [e] := by
          rw [List.take_add_one, List.getElem?_drop, hp]; rfl
        rw [e2, refineSeq_append, refineSeq_single]
        cases refineSeq f ((pool.drop (t * c)).take n) with
        | none => rfl
        | some l => simp only [Prod.mk.injEq, true_and]; cases f e <;> rfl
    · rw [if_neg (by omega), show min n c = c by omega, show min (n + 1) c = c by omega]

/-- The concatenation of the first `n` private lists. -/
def flatParts (part : Nat → List β) : Nat → List β
  | 0 => []
  | n + 1 => flatParts part n ++ part n

theorem prefixSize_eq (part : Nat → List β) (t : Nat) : prefixSize part t = (flatParts part (t + 1)).length := by
  induction t with
  | zero => simp [prefixSize, flatParts]
  | succ t ih => rw [prefixSize, ih, flatParts.eq_def part (t + 1 + 1)]; simp only [List.length_append]; omega

theorem priorSize_eq (part : Nat → List β) (t : Nat) : priorSize part t = (flatParts part t).length := by
  unfold priorSize
  cases t with
  | zero => rfl
  | succ t => rw [if_pos (by omega), prefixSize_eq]; rfl

theorem flatParts_get (part : Nat → List β) {t T i : Nat} (ht : t < T) (hi : i < (part t).length) :
    (flatParts part T)[(flatParts part t).length + i]? = (part t)[i]? := by
  induction T with
  | zero => omega
  | succ T ih =>
    rw [flatParts]
    by_cases h : t = T
    · subst h
      rw [List.getElem?_append_right (by omega)]
      congr 1; omega
    · have h1 := ih (by omega)
      rw [List.getElem?_eq_getElem hi] at h1
      have h2 := (List.getElem?_eq_some_iff.1 h1).1
      rw [List.getElem?_append_left h2, h1, List.getElem?_eq_getElem hi]

theorem flatParts_index (part : Nat → List β) (T j : Nat) (h : j < (flatParts part T).length) :
    ∃ t i, t < T ∧ i < (part t).length ∧ j = (flatParts part t).length + i := by
  induction T with
  | zero => simp [flatParts] at h
  | succ T ih =>
    by_cases hj : j < (flatParts part T).length
    · obtain ⟨t, i, h1, h2, h3⟩ := ih hj
      exact ⟨t, i, by omega, h2, h3⟩
    · rw [flatParts, List.length_append] at h
      exact ⟨T, j - (flatParts part T).length, by omega, by omega, by omega⟩

/-- Every cell written so far holds its final value, and thread `t` has written its first `next t` values. -/
structure CopyInv (part : Nat → List β) (T : Nat) (s : CopyState β) : Prop where
  value : ∀ j x, s.cells j = some x → (flatParts part T)[j]? = some x
  written : ∀ t i, t < T → i < s.next t → ∃ x, s.cells ((flatParts part t).length + i) = some x
  bound : ∀ t, t < T → s.next t ≤ (part t).length

theorem copyStep_spec (part : Nat → List β) (T t : Nat) (ht : t < T) (s : CopyState β) (h : CopyInv part T s) :
    ∃ s', copyStep part (flatParts part T).length t s = some s' ∧ CopyInv part T s' ∧
      (∀ u, u ≠ t → s'.next u = s.next u) ∧ s'.next t = min (s.next t + 1) (part t).length := by
  unfold copyStep
  rw [prefixSize_eq, priorSize_eq]
  have e1 : (flatParts part (t + 1)).length - (flatParts part t).length = (part t).length := by
    rw [flatParts, List.length_append]; omega
  rw [e1]
  by_cases hn : s.next t < (part t).length
  · rw [if_pos hn]
    have hg := flatParts_get part ht hn
    rw [List.getElem?_eq_getElem hn] at hg ⊢
    simp only
    rw [if_pos (List.getElem?_eq_some_iff.1 hg).1]
    refine ⟨_, rfl, ⟨?_, ?_, ?_⟩, ?_, ?_⟩
    · intro j x
      simp only
      split
      · rename_i hj
        intro hx
        rw [hj, hg, hx]
      · exact h.value j x
    · intro u i hu hi
      simp only at hi ⊢
      split
      · exact ⟨_, rfl⟩
      · rename_i hne
        apply h.written u i hu
        split at hi
        · rename_i hut
          subst hut
          have : i ≠ s.next u := fun hc => hne (by rw [hc])
          omega
        · exact hi
    · intro u hu
      simp only
      split
      · rename_i hut; subst hut; omega
      · exact h.bound u hu
    · intro u hu; simp only; rw [if_neg hu]
    · simp only [if_true]; omega
  · rw [if_neg hn]
    exact ⟨s, rfl, h, fun _ _ => rfl, by have := h.bound t ht; omega⟩

theorem runCopy_spec (part : Nat → List β) (T : Nat) (sched : List Nat) (hs : ∀ t ∈ sched, t < T) (s : CopyState β)
    (h : CopyInv part T s) :
    ∃ s', runCopy part (flatParts part T).length sched s = some s' ∧ CopyInv part T s' ∧
      ∀ t, t < T → s'.next t = min (s.next t + sched.count t) (part t).length := by
  induction sched generalizing s with
  | nil => exact ⟨s, rfl, h, fun t ht => by have := h.bound t ht; simp; omega⟩
  | cons u us ih =>
    obtain ⟨s1, e1, i1, n1, m1⟩ := copyStep_spec part T u (hs u (by simp)) s h
    obtain ⟨s2, e2, i2, n2⟩ := ih (fun t ht => hs t (by simp [ht])) s1 i1
    refine ⟨s2, by rw [runCopy, e1]; exact e2, i2, fun t ht => ?_⟩
    rw [n2 t ht, List.count_cons]
    by_cases htu : t = u
    · subst htu
      rw [m1]; simp; omega
    · rw [n1 t htu]
      simp [Ne.symm htu]

theorem refineSeq_chunks (f : α → Option (List β)) (pool : List α) (c n : Nat) :
    refineSeq f (pool.take (n * c)) =
      if (List.range n).all (fun t => (refineSeq f (chunkOf pool c t)).isSome) then
        some (flatParts (fun t => (refineSeq f (chunkOf pool c t)).getD []) n)
      else none := by
  induction n with
  | zero => simp [refineSeq, flatParts]
  | succ n ih =>
    have e : pool.take ((n + 1) * c) = pool.take (n * c) ++ chunkOf pool c n := by
      rw [show (n + 1) * c = n * c + c by ring, List.take_add]; rfl
    rw [e, refineSeq_append, ih, flatParts, List.range_succ, List.all_append]
    cases hr : refineSeq f (chunkOf pool c n) with
    | none => simp [hr]
    | some l =>
      by_cases ha : (List.range n).all (fun t => (refineSeq f (chunkOf pool c t)).isSome) = true
      · simp [ha, hr]
      · simp only [Bool.not_eq_true] at ha
        simp [ha]

/-- Both regions run to their end: only the `T` threads move, each often enough to finish its loop. -/
structure RunsToEnd (f : α → Option (List β)) (T : Nat) (pool : List α) (sched₁ sched₂ : List Nat) : Prop where
  only₁ : ∀ t ∈ sched₁, t < T
  only₂ : ∀ t ∈ sched₂, t < T
  end₁ : ∀ t, t < T → chunkSize pool.length T ≤ sched₁.count t
  end₂ : ∀ t, t < T → ∀ l, refineSeq f (chunkOf pool (chunkSize pool.length T) t) = some l → l.length ≤ sched₂.count t

/-- **C32.** For every number of threads and every interleaving of the two parallel regions, the new pool is the pool
computed face by face: same entries, same order, no cell left unwritten, and undefined behaviour only if the work on
some face is undefined. -/
theorem C32_parallel_eq_sequential (f : α → Option (List β)) (T : Nat) (hT : 0 < T) (pool : List α) (sched₁ sched₂ : List Nat)
    (h : RunsToEnd f T pool sched₁ sched₂) :
    refineParallel f T pool sched₁ sched₂ = (refineSeq f pool).map (List.map some) := by
  set c := chunkSize pool.length T with hc
  have hst : ∀ t, t < T → runSched (threadStep f pool c) sched₁ (fun _ => (0, some [])) t = (c, refineSeq f (chunkOf pool c t)) := by
    intro t ht
    rw [runSched_eq, threadStep_iterate]
    have := h.end₁ t ht
    rw [← hc] at this
    rw [show min (sched₁.count t) c = c by omega]
    rfl
  have hall : pool.take (T * c) = pool := by
    apply List.take_of_length_le
    have h1 := Nat.lt_div_mul_add (a := pool.length) hT
    rw [hc, chunkSize, Nat.mul_add, Nat.mul_comm T]
    omega
  unfold refineParallel
  rw [if_neg (by omega), ← hc]
  have hseq := refineSeq_chunks f pool c T
  rw [hall] at hseq
  rw [hseq]
  have hcond : (List.range T).all (fun t => (runSched (threadStep f pool c) sched₁ (fun _ => (0, some [])) t).2.isSome) =
      (List.range T).all (fun t => (refineSeq f (chunkOf pool c t)).isSome) := by
    rw [Bool.eq_iff_iff, List.all_eq_true, List.all_eq_true]
    constructor
    · intro H t ht; have := H t ht; rw [hst t (List.mem_range.1 ht)] at this; exact this
    · intro H t ht; rw [hst t (List.mem_range.1 ht)]; exact H t ht
  unfold gatherParts
  rw [hcond]
  split_ifs with hb
  · simp only [Option.map_some]
    set part : Nat → List β := fun t => ((runSched (threadStep f pool c) sched₁ (fun _ => (0, some [])) t).2).getD [] with hpart
    have hpe : ∀ t, t < T → part t = (refineSeq f (chunkOf pool c t)).getD [] := by
      intro t ht; rw [hpart]; simp only; rw [hst t ht]
    have hflat : ∀ n, n ≤ T → flatParts (fun t => (refineSeq f (chunkOf pool c t)).getD []) n = flatParts part n := by
      intro n
      induction n with
      | zero => intro _; rfl
      | succ n ih => intro hn; rw [flatParts, flatParts, ih (by omega), hpe n (by omega)]
    rw [hflat T le_rfl]
    have hsz : prefixSize part (T - 1) = (flatParts part T).length := by
      rw [prefixSize_eq, Nat.sub_add_cancel hT]
    rw [hsz]
    have hinv : CopyInv part T (⟨fun _ => none, fun _ => 0⟩ : CopyState β) :=
      ⟨fun j x hx => by simp at hx, fun t i _ hi => by simp at hi, fun t _ => Nat.zero_le _⟩
    obtain ⟨s, e, hs, hn⟩ := runCopy_spec part T sched₂ h.only₂ _ hinv
    rw [e]
    simp only [Option.some.injEq]
    apply List.ext_getElem
    · simp
    · intro j hj1 hj2
      simp only [List.length_map, List.length_range] at hj1
      simp only [List.getElem_map, List.getElem_range]
      obtain ⟨t, i, ht, hi, rfl⟩ := flatParts_index part T j hj1
      have hnt := hn t ht
      have hall' := List.all_eq_true.1 hb t (List.mem_range.2 ht)
      obtain ⟨l, hl⟩ := Option.isSome_iff_exists.1 hall'
      have hpl : part t = l := by rw [hpe t ht, hl]; rfl
      have := h.end₂ t ht l hl
      obtain ⟨x, hx⟩ := hs.written t i ht (by
        rw [hnt]
        rw [hpl] at hi ⊢
        simp only [zero_add]; omega)
      rw [hx]
      have := hs.value _ _ hx
      rw [List.getElem?_eq_getElem hj1] at this
      exact this.symm
  · rfl

/-- **C32, corollary.** The result does not depend on the number of threads or on the schedule. -/
theorem C32_thread_count_irrelevant (f : α → Option (List β)) (T T' : Nat) (hT : 0 < T) (hT' : 0 < T') (pool : List α)
    (s₁ s₂ s₁' s₂' : List Nat) (h : RunsToEnd f T pool s₁ s₂) (h' : RunsToEnd f T' pool s₁' s₂') :
    refineParallel f T pool s₁ s₂ = refineParallel f T' pool s₁' s₂' := by
  rw [C32_parallel_eq_sequential f T hT pool s₁ s₂ h, C32_parallel_eq_sequential f T' hT' pool s₁' s₂' h']

/-- The thread after thread schedule of a build without OpenMP. -/
def blockSched (n : Nat → Nat) : Nat → List Nat
  | 0 => []
  | T + 1 => blockSched n T ++ List.replicate (n T) T

theorem mem_blockSched (n : Nat → Nat) (T t : Nat) (h : t ∈ blockSched n T) : t < T := by
  induction T with
  | zero => simp [blockSched] at h
  | succ T ih =>
    rw [blockSched, List.mem_append] at h
    rcases h with h | h
    · have := ih h; omega
    · rw [List.eq_of_mem_replicate h]; omega

theorem count_blockSched (n : Nat → Nat) (T t : Nat) (h : t < T) : n t ≤ (blockSched n T).count t := by
  induction T with
  | zero => omega
  | succ T ih =>
    rw [blockSched, List.count_append]
    by_cases ht : t = T
    · subst ht; rw [List.count_replicate_self]; omega
    · have := ih (by omega); omega

/-- **C32, the hypothesis can be met** for every number of threads, also by the sequential build. -/
theorem C32_sequential_build_runs (f : α → Option (List β)) (T : Nat) (pool : List α) :
    ∃ s₁ s₂, RunsToEnd f T pool s₁ s₂ := by
  refine ⟨blockSched (fun _ => chunkSize pool.length T) T,
    blockSched (fun t => ((refineSeq f (chunkOf pool (chunkSize pool.length T) t)).getD []).length) T,
    mem_blockSched _ _, mem_blockSched _ _, count_blockSched _ _, fun t ht l hl => ?_⟩
  have := count_blockSched (fun t => ((refineSeq f (chunkOf pool (chunkSize pool.length T) t)).getD []).length) T t ht
  rw [hl] at this
  exact this

-- three threads, interleaved; 3 is "covered"
example : refineParallel (fun n : Nat => if n = 3 then some [] else some [n, 10 * n]) 3 [1, 2, 3, 4] [2, 0, 1, 0, 1, 2] [1, 0, 1, 0, 0, 0, 0, 1, 1]
    = some [some 1, some 10, some 2, some 20, some 4, some 40] := by decide

-- an unfinished second region leaves cells unwritten
example : refineParallel (fun n : Nat => some [n]) 2 [1, 2, 3] [0, 0, 1, 1] [1, 0] = some [some 1, none, some 3] := by decide

/-! ## C34 -/

theorem patchFaces_eq (nf lo hi : Nat) (h1 : lo ≤ hi) (h2 : hi ≤ nf) : patchFaces nf lo hi = List.range' lo (hi - lo) := by
  unfold patchFaces
  have e : List.range nf = List.range' 0 lo ++ (List.range' lo (hi - lo) ++ List.range' hi (nf - hi)) := by
    rw [List.range_eq_range']
    have e1 : List.range' lo (hi - lo) ++ List.range' hi (nf - hi) = List.range' lo (nf - lo) := by
      have := List.range'_append (s := lo) (m := hi - lo) (n := nf - hi) (step := 1)
      rw [show lo + 1 * (hi - lo) = hi by omega, show (hi - lo) + (nf - hi) = nf - lo by omega] at this
      exact this
    rw [e1]
    have := List.range'_append (s := 0) (m := lo) (n := nf - lo) (step := 1)
    rw [show 0 + 1 * lo = lo by omega, show lo + (nf - lo) = nf by omega] at this
    exact this.symm
  rw [e, List.filter_append, List.filter_append, List.filter_eq_nil_iff.2, List.filter_eq_self.2, List.filter_eq_nil_iff.2]
  · simp
  · intro a ha; have := List.mem_range'_1.1 ha; simp; omega
  · intro a ha; have := List.mem_range'_1.1 ha; simp; omega
  · intro a ha; have := List.mem_range'_1.1 ha; simp; omega

theorem patchLoop_spec (nf np : Nat) (hnp : 0 < np) (hbin : np ≤ nf) (fuel i : Nat) (hi : i ≤ np) (hf : np - i ≤ fuel) :
    ∃ ps, patchLoop nf fuel i np = some ps ∧ (∀ p ∈ ps, p.1 = p.2.length ∧ p.2 ≠ []) ∧ ps.length = np - i ∧
      (ps.map Prod.snd).flatten = if i < np then List.range' (i * (nf / np)) (nf - i * (nf / np)) else [] := by
  have hq : 0 < nf / np := Nat.div_pos hbin hnp
  have hqm : np * (nf / np) ≤ nf := Nat.mul_div_le nf np
  induction fuel generalizing i with
  | zero =>
    have : i = np := by omega
    subst this
    exact ⟨[], by unfold patchLoop; rw [if_neg (by omega)], by simp, by simp, by rw [if_neg (by omega)]; rfl⟩
  | succ fuel ih =>
    by_cases hlt : i < np
    · obtain ⟨ps, e, h1, h2, h3⟩ := ih (i + 1) (by omega) (by omega)
      have hm : (i + 1) * (nf / np) ≤ np * (nf / np) := Nat.mul_le_mul_right _ (by omega)
      have hm2 : (i + 1) * (nf / np) = i * (nf / np) + nf / np := by ring
      set lo := i * (nf / np) with hlo
      set hi' := if i = np - 1 then nf else lo + nf / np with hhi
      have hrange : patchRange nf np i = some (lo, hi', np) := by
        unfold patchRange
        rw [if_neg (by omega)]
        simp only [if_neg (show ¬ nf / np = 0 by omega)]
        rw [hhi, hlo]
      have hlo1 : lo < hi' := by rw [hhi]; split <;> omega
      have hhi1 : hi' ≤ nf := by rw [hhi]; split <;> omega
      refine ⟨(hi' - lo, patchFaces nf lo hi') :: ps, ?_, ?_, by rw [List.length_cons, h2]; omega, ?_⟩
      · rw [patchLoop, if_pos hlt]
        simp only [hrange, if_pos hlo1.le, e, Option.map_some]
      · intro p hp
        rcases List.mem_cons.1 hp with rfl | hp
        · rw [patchFaces_eq nf lo hi' hlo1.le hhi1]
          refine ⟨by simp, fun hc => ?_⟩
          have := congrArg List.length hc
          simp at this; omega
        · exact h1 p hp
      · rw [List.map_cons, List.flatten_cons, h3, if_pos hlt, patchFaces_eq nf lo hi' hlo1.le hhi1]
        by_cases hlast : i = np - 1
        · rw [if_neg (by omega), List.append_nil, hhi, if_pos hlast]
        · rw [if_pos (by omega), hhi, if_neg hlast, hm2]
          have := List.range'_append (s := lo) (m := lo + nf / np - lo) (n := nf - (lo + nf / np)) (step := 1)
          rw [show lo + 1 * (lo + nf / np - lo) = lo + nf / np by omega,
            show (lo + nf / np - lo) + (nf - (lo + nf / np)) = nf - lo by omega] at this
          exact this
    · exact ⟨[], by unfold patchLoop; rw [if_neg hlt], by simp, by simp; omega, by rw [if_neg hlt]; rfl⟩

/-- **C34.** For every number of faces and every positive number of patches the loop over the patches ends, no subtraction
underflows, the declared size of each pool is the number of slots filled, and the patches one after the other list
every face exactly once. -/
theorem C34_patches_partition (nf np : Nat) (hnp : 0 < np) :
    ∃ ps, patchLoop nf np 0 np = some ps ∧ (∀ p ∈ ps, p.1 = p.2.length) ∧ (ps.map Prod.snd).flatten = List.range nf ∧
      (0 < nf → ∀ p ∈ ps, p.2 ≠ []) := by
  by_cases hbin : np ≤ nf
  · obtain ⟨ps, e, h1, -, h3⟩ := patchLoop_spec nf np hnp hbin np 0 (by omega) (by omega)
    refine ⟨ps, e, fun p hp => (h1 p hp).1, ?_, fun _ p hp => (h1 p hp).2⟩
    rw [h3, if_pos hnp, List.range_eq_range']; simp
  · obtain ⟨m, rfl⟩ : ∃ m, np = m + 1 := ⟨np - 1, by omega⟩
    have hz : nf / (m + 1) = 0 := Nat.div_eq_of_lt (by omega)
    have hr : patchRange nf (m + 1) 0 = some (0, nf, 1) := by
      unfold patchRange
      rw [if_neg (by omega)]
      simp [hz]
    have hp := patchFaces_eq nf 0 nf (by omega) le_rfl
    refine ⟨[(nf - 0, patchFaces nf 0 nf)], ?_, ?_, ?_, ?_⟩
    · rw [patchLoop, if_pos hnp]
      simp only [hr, if_pos (Nat.zero_le nf)]
      have : patchLoop nf m (0 + 1) 1 = some [] := by unfold patchLoop; rw [if_neg (by omega)]
      rw [this]
      rfl
    · intro p hp'
      rw [List.mem_singleton.1 hp', hp]; simp
    · simp [hp, List.range_eq_range']
    · intro h0 p hp'
      rw [List.mem_singleton.1 hp', hp]
      intro hc
      have := congrArg List.length hc
      simp at this; omega

/-- **C34, pairwise disjoint.** No face is in two patches, nor twice in one, and every face is in some patch. -/
theorem C34_patches_disjoint (nf np : Nat) (hnp : 0 < np) (ps : List (Nat × List Nat)) (h : patchLoop nf np 0 np = some ps) :
    (ps.map Prod.snd).flatten.Nodup ∧ (∀ f, f < nf ↔ ∃ p ∈ ps, f ∈ p.2) ∧ ps.Pairwise fun p q => List.Disjoint p.2 q.2 := by
  obtain ⟨ps', e, -, h2, -⟩ := C34_patches_partition nf np hnp
  rw [h] at e
  obtain rfl := Option.some.inj e
  have hnd : (ps.map Prod.snd).flatten.Nodup := by rw [h2]; exact List.nodup_range
  refine ⟨hnd, fun f => ?_, ?_⟩
  · rw [← List.mem_range, ← h2, List.mem_flatten]
    constructor
    · rintro ⟨l, hl, hf⟩
      obtain ⟨p, hp, rfl⟩ := List.mem_map.1 hl
      exact ⟨p, hp, hf⟩
    · rintro ⟨p, hp, hf⟩
      exact ⟨p.2, List.mem_map.2 ⟨p, hp, rfl⟩, hf⟩
  · have := (List.nodup_flatten.1 hnd).2
    exact List.pairwise_map.1 this

/-- **C34, precondition.** Zero patches divide by zero. -/
theorem C34_no_patch_undefined (nf i : Nat) : patchRange nf 0 i = none := rfl

-- seven faces in three patches
example : patchLoop 7 3 0 3 = some [(2, [0, 1]), (2, [2, 3]), (3, [4, 5, 6])] := by decide
-- fewer faces than patches: one patch
example : patchLoop 2 3 0 3 = some [(2, [0, 1])] := by decide

end VoroCrust
