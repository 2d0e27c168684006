import Verif.Model.Fans
import Verif.Props.Geometry
import Verif.Props.Graph
import Verif.Props.Regions
import Mathlib.Data.Finset.Card
import Mathlib.Data.List.Chain
import Mathlib.Logic.Relation

/-! # C84: seeds around a surface sphere are connected exactly along their side of the surface -/

namespace VoroCrust

open Classical

/-! ## Specification -/

/-- Seed `s` belongs to the triangle of spheres `i`, `u`, `v`. -/
def Spokes (F : FanEnv) (i s u v : Nat) : Prop := ∃ a, F.attr[s]? = some a ∧ [a.s1, a.s2, a.s3].Perm [i, u, v]

/-- Seed `p` is recorded as the other seed of the pair of `s`. -/
def Partner (F : FanEnv) (s p : Nat) : Prop := ∃ a, F.attr[s]? = some a ∧ a.pair = p

/-- Spheres `i`, `u`, `v` form a triangle with seeds. -/
def FanLinked (F : FanEnv) (i u v : Nat) : Prop := ∃ s, Spokes F i s u v

/-- Going from `s` to its partner `p` leads to the side the triangle `i`, `u`, `w` is oriented to. -/
def PairBelow (F : FanEnv) (i u w s p : Nat) : Prop :=
  0 < dot3 (fun d => F.seed p d - F.seed s d) (areaVec ![F.sphere i, F.sphere u, F.sphere w])

/-- `l` lists the seeds around sphere `i`; they come in pairs, one pair for each triangle, on different sides of triangles that are not degenerate. -/
structure PairsAround (F : FanEnv) (i : Nat) (l : List Nat) : Prop where
  nodup : l.Nodup
  around : ∀ s ∈ l, ∃ u v, Spokes F i s u v
  all : ∀ s u v, Spokes F i s u v → s ∈ l
  partner : ∀ s ∈ l, ∃ p ∈ l, p ≠ s ∧ Partner F s p ∧ Partner F p s ∧ ∀ u v, Spokes F i s u v → Spokes F i p u v
  distinct : ∀ s ∈ l, ∀ u v, Spokes F i s u v → u ≠ v
  only : ∀ s ∈ l, ∀ t ∈ l, ∀ u v, Spokes F i s u v → Spokes F i t u v → t = s ∨ Partner F s t
  sides : ∀ s ∈ l, ∀ p u v, Partner F s p → Spokes F i s u v → (triNormal ![F.sphere i, F.sphere u, F.sphere v]).2 = true ∧
    dot3 (fun d => F.seed p d - F.seed s d) (areaVec ![F.sphere i, F.sphere u, F.sphere v]) ≠ 0

/-- Every edge `i`–`w` has exactly two triangles. -/
def TwoTriangles (F : FanEnv) (i w : Nat) : Prop :=
  ∀ u, FanLinked F i u w → ∃ v, v ≠ u ∧ FanLinked F i w v ∧ ∀ x, FanLinked F i w x → x = u ∨ x = v

/-- The seeds `s` and `t` belong to neighbouring triangles around sphere `i` and lie on the same side. -/
def TurnStep (F : FanEnv) (i : Nat) (s t : Nat) : Prop :=
  ∃ u w v p q, u ≠ v ∧ Spokes F i s u w ∧ Spokes F i t w v ∧ Partner F s p ∧ Partner F t q ∧ (PairBelow F i u w s p ↔ PairBelow F i w v t q)

/-- A chain of neighbouring triangles leads from `s` to `t` along one side of the surface. -/
def SameSide (F : FanEnv) (i : Nat) : Nat → Nat → Prop := Relation.ReflTransGen (TurnStep F i)

/-! ## Attributes -/

theorem Spokes.symm {F : FanEnv} {i s u v : Nat} (h : Spokes F i s u v) : Spokes F i s v u := by
  obtain ⟨a, e, h⟩ := h
  exact ⟨a, e, h.trans ((List.Perm.swap v u []).cons i)⟩

theorem FanLinked.symm {F : FanEnv} {i u v : Nat} (h : FanLinked F i u v) : FanLinked F i v u := by
  obtain ⟨s, h⟩ := h
  exact ⟨s, h.symm⟩

theorem Partner.unique {F : FanEnv} {s p q : Nat} (h : Partner F s p) (k : Partner F s q) : p = q := by
  obtain ⟨a, e, h⟩ := h
  obtain ⟨b, e', k⟩ := k
  rw [e] at e'; cases e'
  exact h.symm.trans k

theorem Partner.lt {F : FanEnv} {s p : Nat} (h : Partner F s p) : s < F.attr.length := by
  obtain ⟨a, e, -⟩ := h
  exact (List.getElem?_eq_some_iff.1 e).1

theorem perm_pair {a b u v : Nat} (h : [a, b].Perm [u, v]) : (a = u ∧ b = v) ∨ (a = v ∧ b = u) := by
  have hm : a ∈ [u, v] := h.subset (by simp)
  simp only [List.mem_cons, List.not_mem_nil, or_false] at hm
  rcases hm with rfl | rfl
  · have := List.perm_cons a |>.1 h
    rw [List.perm_singleton] at this; simp at this
    exact Or.inl ⟨rfl, this⟩
  · have := List.perm_cons a |>.1 (h.trans (List.Perm.swap a u []))
    rw [List.perm_singleton] at this; simp at this
    exact Or.inr ⟨rfl, this⟩

theorem turned_some {F : FanEnv} {i s p u v : Nat} (h : turned F i s = some (p, u, v)) : Spokes F i s u v ∧ Partner F s p := by
  unfold turned at h
  cases e : F.attr[s]? with
  | none => rw [e] at h; simp at h
  | some a =>
    rw [e] at h
    simp only [spokesOf] at h
    split_ifs at h with h1 h2 h3
    · simp at h; obtain ⟨rfl, rfl, rfl⟩ := h
      exact ⟨⟨a, e, by rw [h1]⟩, a, e, rfl⟩
    · simp at h; obtain ⟨rfl, rfl, rfl⟩ := h
      refine ⟨⟨a, e, ?_⟩, a, e, rfl⟩
      rw [h2]
      exact (List.perm_append_comm (l₁ := [a.s1]) (l₂ := [i, a.s3]))
    · simp at h; obtain ⟨rfl, rfl, rfl⟩ := h
      refine ⟨⟨a, e, ?_⟩, a, e, rfl⟩
      rw [h3]
      exact (List.perm_append_comm (l₁ := [a.s1, a.s2]) (l₂ := [i]))
    · simp at h

theorem turned_of_spokes {F : FanEnv} {i s u v : Nat} (h : Spokes F i s u v) : ∃ p, turned F i s = some (p, u, v) ∨ turned F i s = some (p, v, u) := by
  obtain ⟨a, e, h⟩ := h
  refine ⟨a.pair, ?_⟩
  unfold turned
  rw [e]
  simp only [spokesOf]
  have hm : i ∈ [a.s1, a.s2, a.s3] := h.symm.subset (by simp)
  split_ifs with h1 h2 h3
  · rw [h1] at h
    rcases perm_pair ((List.perm_cons i).1 h) with ⟨x, y⟩ | ⟨x, y⟩ <;> simp [x, y]
  · rw [h2] at h
    have h' := (List.perm_append_comm (l₁ := [i, a.s3]) (l₂ := [a.s1])).trans h
    rcases perm_pair ((List.perm_cons i).1 h') with ⟨x, y⟩ | ⟨x, y⟩ <;> simp [x, y]
  · rw [h3] at h
    have h' := (List.perm_append_comm (l₁ := [i]) (l₂ := [a.s1, a.s2])).trans h
    rcases perm_pair ((List.perm_cons i).1 h') with ⟨x, y⟩ | ⟨x, y⟩ <;> simp [x, y]
  · simp only [List.mem_cons, List.not_mem_nil, or_false] at hm
    omega

theorem Spokes.det {F : FanEnv} {i s u v x y : Nat} (h : Spokes F i s u v) (k : Spokes F i s x y) : (x = u ∧ y = v) ∨ (x = v ∧ y = u) := by
  obtain ⟨a, e, h⟩ := h
  obtain ⟨b, e', k⟩ := k
  rw [e] at e'; cases e'
  exact perm_pair ((List.perm_cons i).1 (k.symm.trans h))

/-! ## Sides -/

theorem areaVec_turn (x y z : V3) (d : Fin 3) : areaVec ![x, z, y] d = -areaVec ![x, y, z] d := by
  unfold areaVec cross3
  fin_cases d <;> simp <;> ring

theorem below_swap {F : FanEnv} {i u w s p : Nat} (h : dot3 (fun d => F.seed p d - F.seed s d) (areaVec ![F.sphere i, F.sphere u, F.sphere w]) ≠ 0) :
    PairBelow F i w u s p ↔ ¬ PairBelow F i u w s p := by
  unfold PairBelow
  have e : dot3 (fun d => F.seed p d - F.seed s d) (areaVec ![F.sphere i, F.sphere w, F.sphere u]) =
      -dot3 (fun d => F.seed p d - F.seed s d) (areaVec ![F.sphere i, F.sphere u, F.sphere w]) := by
    simp only [dot3, areaVec_turn (F.sphere i) (F.sphere u) (F.sphere w)]; ring
  rw [e]
  rcases lt_or_gt_of_ne h with h | h
  · exact ⟨fun _ => by linarith, fun _ => by linarith⟩
  · exact ⟨fun k => by linarith, fun k => absurd h k⟩

theorem below_partner {F : FanEnv} {i u w s p : Nat} (h : dot3 (fun d => F.seed p d - F.seed s d) (areaVec ![F.sphere i, F.sphere u, F.sphere w]) ≠ 0) :
    PairBelow F i u w p s ↔ ¬ PairBelow F i u w s p := by
  unfold PairBelow
  have e : dot3 (fun d => F.seed s d - F.seed p d) (areaVec ![F.sphere i, F.sphere u, F.sphere w]) =
      -dot3 (fun d => F.seed p d - F.seed s d) (areaVec ![F.sphere i, F.sphere u, F.sphere w]) := by
    simp only [dot3]; ring
  rw [e]
  rcases lt_or_gt_of_ne h with h | h
  · exact ⟨fun _ => by linarith, fun _ => by linarith⟩
  · exact ⟨fun k => by linarith, fun k => absurd h k⟩

theorem pairDot_pos {F : FanEnv} {i j k s p : Nat} (h : (triNormal ![F.sphere i, F.sphere j, F.sphere k]).2 = true) :
    0 < pairDot F s p i j k ↔ PairBelow F i j k s p := by
  rcases triNormal_spec ![F.sphere i, F.sphere j, F.sphere k] with ⟨-, -, -, m, hm, hd⟩ | ⟨h', -⟩
  · unfold pairDot PairBelow
    have : (triNormal ![F.sphere i, F.sphere j, F.sphere k]).1 = fun d => m * areaVec ![F.sphere i, F.sphere j, F.sphere k] d := funext hd
    rw [this]
    have e : ∀ x y : V3, dot3 x (fun d => m * y d) = m * dot3 x y := fun x y => by unfold dot3; ring
    rw [e]
    exact mul_pos_iff_of_pos_left hm
  · rw [h] at h'; exact absurd h' (by simp)

/-! ## One step -/

/-- The marks after walking along the oriented edges `E` with their two marks. -/
structure Marked (F : FanEnv) (i : Nat) (l : List Nat) (E : List (Nat × Nat × Nat × Nat)) (c : Nat → Nat) : Prop where
  zero : ∀ s ∈ l, c s = 0 ↔ ∀ e ∈ E, ¬ Spokes F i s e.1 e.2.1
  value : ∀ s ∈ l, ∀ p, Partner F s p → ∀ e ∈ E, Spokes F i s e.1 e.2.1 → c s = if PairBelow F i e.1 e.2.1 s p then e.2.2.1 else e.2.2.2

theorem nextTriangle_spec {F : FanEnv} {i j : Nat} {c : Nat → Nat} : ∀ l : List Nat, (∀ s ∈ l, ∃ u v, Spokes F i s u v) →
    (nextTriangle F i j c l = some none ∧ ∀ s ∈ l, c s = 0 → ∀ v, ¬ Spokes F i s j v) ∨
    ∃ s p k, nextTriangle F i j c l = some (some (s, p, k)) ∧ s ∈ l ∧ c s = 0 ∧ Spokes F i s j k ∧ Partner F s p
  | [], _ => Or.inl ⟨rfl, by simp⟩
  | s :: l, h => by
    obtain ⟨u, v, hs⟩ := h s (by simp)
    have ih := nextTriangle_spec (F := F) (i := i) (j := j) (c := c) l (fun t ht => h t (by simp [ht]))
    obtain ⟨p, u, v, e⟩ : ∃ p u v, turned F i s = some (p, u, v) := by
      obtain ⟨p, e | e⟩ := turned_of_spokes hs <;> exact ⟨_, _, _, e⟩
    obtain ⟨h1, h2⟩ := turned_some e
    unfold nextTriangle
    rw [e]
    simp only
    by_cases hc : c s ≠ 0
    · rw [if_pos hc]
      rcases ih with ⟨a, b⟩ | ⟨t, q, k, a, b, d⟩
      · refine Or.inl ⟨a, fun t ht h0 => ?_⟩
        rcases List.mem_cons.1 ht with rfl | ht
        · exact absurd h0 hc
        · exact b t ht h0
      · exact Or.inr ⟨t, q, k, a, by simp [b], d⟩
    · rw [if_neg hc]
      by_cases hj : u ≠ j ∧ v ≠ j
      · rw [if_pos hj]
        rcases ih with ⟨a, b⟩ | ⟨t, q, k, a, b, d⟩
        · refine Or.inl ⟨a, fun t ht h0 x => ?_⟩
          rcases List.mem_cons.1 ht with rfl | ht
          · intro hx
            rcases h1.det hx with ⟨y, z⟩ | ⟨y, z⟩
            · exact hj.1 y.symm
            · exact hj.2 y.symm
          · exact b t ht h0 x
        · exact Or.inr ⟨t, q, k, a, by simp [b], d⟩
      · rw [if_neg hj]
        refine Or.inr ⟨s, p, _, rfl, by simp, not_not.1 hc, ?_, h2⟩
        by_cases hu : u = j
        · rw [if_neg (by simpa using hu), ← hu]; exact h1
        · rw [if_pos hu]
          have : v = j := by
            by_contra hv; exact hj ⟨hu, hv⟩
          rw [← this]; exact h1.symm

theorem markPair_spec {F : FanEnv} {i : Nat} {l : List Nat} (h : PairsAround F i l) {E : List (Nat × Nat × Nat × Nat)} {c : Nat → Nat} (hM : Marked F i l E c)
    {s p j k a b : Nat} (ha : a ≠ 0) (hb : b ≠ 0) (hs : s ∈ l) (hsp : Partner F s p) (hj : Spokes F i s j k) (hE : ∀ e ∈ E, ¬ Spokes F i s e.1 e.2.1) :
    ∃ c', markPair F i s p j k a b c = some c' ∧ Marked F i l ((j, k, a, b) :: E) c' ∧ ∀ x, x ∉ l → c' x = c x := by
  obtain ⟨p', hp', hne, hsp', hps, hsame⟩ := h.partner s hs
  obtain rfl : p' = p := hsp'.unique hsp
  obtain ⟨hn, h0⟩ := h.sides s hs p' j k hsp hj
  have hlt := hps.lt
  have hpos : (0 < pairDot F s p' i j k) ↔ PairBelow F i j k s p' := pairDot_pos hn
  have hneg := below_partner h0
  set c' := if 0 < pairDot F s p' i j k then upd (upd c s a) p' b else upd (upd c s b) p' a with hc'
  have vs : c' s = if PairBelow F i j k s p' then a else b := by
    rw [hc']
    by_cases hB : PairBelow F i j k s p'
    · rw [if_pos (hpos.2 hB), if_pos hB]; simp [upd, hne.symm]
    · rw [if_neg (fun x => hB (hpos.1 x)), if_neg hB]; simp [upd, hne.symm]
  have vp : c' p' = if PairBelow F i j k p' s then a else b := by
    rw [hc']
    by_cases hB : PairBelow F i j k s p'
    · rw [if_pos (hpos.2 hB), if_neg (fun x => hneg.1 x hB)]; simp [upd]
    · rw [if_neg (fun x => hB (hpos.1 x)), if_pos (hneg.2 hB)]; simp [upd]
  have vo : ∀ x, x ≠ s → x ≠ p' → c' x = c x := by
    intro x hx hy
    rw [hc']; split_ifs <;> simp [upd, hx, hy]
  refine ⟨c', by unfold markPair; rw [if_pos hlt], ⟨fun t ht => ?_, fun t ht q hq e he hte => ?_⟩, fun x hx => vo x (fun e => hx (e ▸ hs)) (fun e => hx (e ▸ hp'))⟩
  · by_cases hts : t = s
    · subst hts
      constructor
      · intro z; rw [vs] at z; split_ifs at z <;> contradiction
      · intro z; exact absurd hj (z (j, k, a, b) (by simp))
    · by_cases htp : t = p'
      · subst htp
        constructor
        · intro z; rw [vp] at z; split_ifs at z <;> contradiction
        · intro z; exact absurd (hsame j k hj) (z (j, k, a, b) (by simp))
      · rw [vo t hts htp, hM.zero t ht]
        constructor
        · intro z e he
          rcases List.mem_cons.1 he with rfl | he
          · intro hk
            rcases h.only s hs t ht j k hj hk with x | x
            · exact hts x
            · exact htp (x.unique hsp)
          · exact z e he
        · intro z e he; exact z e (by simp [he])
  · have hnotE : ∀ e ∈ E, ¬ Spokes F i p' e.1 e.2.1 := by
      intro e he hx
      obtain ⟨q, hq, -, hq1, -, hq2⟩ := h.partner p' hp'
      obtain rfl : q = s := hq1.unique hps
      exact hE e he (hq2 _ _ hx)
    by_cases hts : t = s
    · subst hts
      obtain rfl : q = p' := hq.unique hsp
      rcases List.mem_cons.1 he with rfl | he
      · exact vs
      · exact absurd hte (hE e he)
    · by_cases htp : t = p'
      · subst htp
        obtain rfl : q = s := hq.unique hps
        rcases List.mem_cons.1 he with rfl | he
        · exact vp
        · exact absurd hte (hnotE e he)
      · rcases List.mem_cons.1 he with rfl | he
        · exfalso
          rcases h.only s hs t ht j k hj hte with x | x
          · exact hts x
          · exact htp (x.unique hsp)
        · rw [vo t hts htp]; exact hM.value t ht q hq e he hte

/-- The number of seeds without a mark. -/
noncomputable def unmarked (l : List Nat) (c : Nat → Nat) : Nat := (l.toFinset.filter fun s => c s = 0).card

theorem walk_step {F : FanEnv} {i : Nat} {l : List Nat} (h : PairsAround F i l) {E : List (Nat × Nat × Nat × Nat)} {c : Nat → Nat} (hM : Marked F i l E c)
    {j v a b : Nat} (ha : a ≠ 0) (hb : b ≠ 0) (hv : FanLinked F i j v) (hE : ∀ e ∈ E, ¬ ((e.1 = j ∧ e.2.1 = v) ∨ (e.1 = v ∧ e.2.1 = j)))
    (hall : ∀ x, FanLinked F i j x → x = v ∨ ∃ e ∈ E, (e.1 = j ∧ e.2.1 = x) ∨ (e.1 = x ∧ e.2.1 = j)) (stop : Nat → Bool) (f : Nat) :
    ∃ c', walkLoop F i l stop a b (f + 1) j c = (if stop v then some (some c') else walkLoop F i l stop a b f v c') ∧
      Marked F i l ((j, v, a, b) :: E) c' ∧ (∀ x, x ∉ l → c' x = c x) ∧ unmarked l c' < unmarked l c := by
  obtain ⟨s0, hsp0⟩ := hv
  have hs0 := h.all _ _ _ hsp0
  have hz0 : c s0 = 0 := (hM.zero s0 hs0).2 fun e he hx => hE e he (hsp0.det hx)
  rcases nextTriangle_spec (F := F) (i := i) (j := j) (c := c) l h.around with ⟨-, hno⟩ | ⟨s, p, k, e, hs, hz, hsk, hsp⟩
  · exact absurd hsp0 (hno s0 hs0 hz0 v)
  · have hnE := (hM.zero s hs).1 hz
    have hk : k = v := by
      rcases hall k ⟨s, hsk⟩ with x | ⟨e, he, hx | hx⟩
      · exact x
      · exact absurd (by rw [hx.1, hx.2]; exact hsk) (hnE e he)
      · exact absurd (by rw [hx.1, hx.2]; exact hsk.symm) (hnE e he)
    subst hk
    obtain ⟨c', e1, hM', ho⟩ := markPair_spec h hM ha hb hs hsp hsk hnE
    refine ⟨c', ?_, hM', ho, ?_⟩
    · rw [walkLoop, e]; simp only; rw [e1]
    · refine Finset.card_lt_card (Finset.ssubset_iff_of_subset ?_ |>.2 ⟨s, ?_, ?_⟩)
      · intro t ht
        simp only [Finset.mem_filter, List.mem_toFinset] at ht ⊢
        refine ⟨ht.1, (hM.zero t ht.1).2 fun e he => (hM'.zero t ht.1).1 ht.2 e (by simp [he])⟩
      · simp [hs, hz]
      · simp only [Finset.mem_filter, List.mem_toFinset, not_and]
        intro _ hx
        exact (hM'.zero s hs).1 hx (j, k, a, b) (by simp) hsk

/-! ## The ring -/

/-- The oriented edges of a trail, which is listed from its last sphere to its first. -/
def trailEdges (a b : Nat) : List Nat → List (Nat × Nat × Nat × Nat)
  | w :: u :: r => (u, w, a, b) :: trailEdges a b (u :: r)
  | _ => []

theorem trailEdges_mem {a b : Nat} : ∀ (r : List Nat) (e), e ∈ trailEdges a b r → e.1 ∈ r.tail ∧ e.2.1 ∈ r ∧ e.2.2 = (a, b)
  | [], e, h => by simp [trailEdges] at h
  | [_], e, h => by simp [trailEdges] at h
  | w :: u :: r, e, h => by
    simp only [trailEdges, List.mem_cons] at h
    rcases h with rfl | h
    · simp
    · obtain ⟨x, y, z⟩ := trailEdges_mem (u :: r) e h
      exact ⟨by simp at x ⊢; exact Or.inr x, by simp at y ⊢; exact Or.inr y, z⟩

theorem trailEdges_head {a b j u : Nat} {r : List Nat} (hn : (j :: u :: r).Nodup) {e} (he : e ∈ trailEdges a b (j :: u :: r)) (h : e.1 = j ∨ e.2.1 = j) :
    e = (u, j, a, b) := by
  simp only [trailEdges, List.mem_cons] at he
  rcases he with rfl | he
  · rfl
  · obtain ⟨x, y, -⟩ := trailEdges_mem _ e he
    have hj := (List.nodup_cons.1 hn).1
    rcases h with h | h
    · exact absurd (List.mem_of_mem_tail x) (h ▸ hj)
    · exact absurd y (h ▸ hj)

theorem trailEdges_inner {a b : Nat} : ∀ (r : List Nat) (j v : Nat), (j :: r).Nodup → v ∈ r → (j :: r).getLast? ≠ some v →
    ∃ x y, x ≠ y ∧ (v, x, a, b) ∈ trailEdges a b (j :: r) ∧ (y, v, a, b) ∈ trailEdges a b (j :: r)
  | [], j, v, _, h, _ => by simp at h
  | [w], j, v, _, h, hl => by simp at h hl; exact absurd h.symm hl
  | w :: z :: r, j, v, hn, h, hl => by
    rcases List.mem_cons.1 h with rfl | h
    · refine ⟨j, z, ?_, by simp [trailEdges], by simp [trailEdges]⟩
      intro e; subst e
      simp at hn
    · obtain ⟨x, y, h1, h2, h3⟩ := trailEdges_inner (a := a) (b := b) (z :: r) w v (List.nodup_cons.1 hn).2 h (by simpa using hl)
      exact ⟨x, y, h1, List.mem_cons_of_mem _ h2, List.mem_cons_of_mem _ h3⟩

/-- The walk around a surface sphere closes up. -/
theorem ring_walk {F : FanEnv} {i : Nat} {l : List Nat} (h : PairsAround F i l) (h2 : ∀ w, TwoTriangles F i w) {a b : Nat} (ha : a ≠ 0) (hb : b ≠ 0) {u0 : Nat} :
    ∀ (f : Nat) (j u : Nat) (r : List Nat) (c : Nat → Nat), (j :: u :: r).Nodup → (j :: u :: r).getLast? = some u0 →
      (∀ e ∈ trailEdges a b (j :: u :: r), FanLinked F i e.1 e.2.1) → Marked F i l (trailEdges a b (j :: u :: r)) c → unmarked l c < f →
      ∃ t c', walkLoop F i l (fun k => k == u0) a b f j c = some (some c') ∧ t.Nodup ∧ 3 ≤ t.length ∧ t.getLast? = some u0 ∧
        (∀ e ∈ trailEdges a b (u0 :: t), FanLinked F i e.1 e.2.1) ∧ Marked F i l (trailEdges a b (u0 :: t)) c' ∧ (∀ x, x ∉ l → c' x = c x) ∧
        (j :: u :: r) <:+ t
  | 0, _, _, _, _, _, _, _, _, hf => by omega
  | f + 1, j, u, r, c, hn, hlast, hL, hM, hf => by
    obtain ⟨v, hvu, hjv, hv⟩ := h2 j u (hL (u, j, a, b) (by simp [trailEdges]))
    have hfresh : ∀ e ∈ trailEdges a b (j :: u :: r), ¬ ((e.1 = j ∧ e.2.1 = v) ∨ (e.1 = v ∧ e.2.1 = j)) := by
      rintro e he (⟨x, y⟩ | ⟨x, y⟩)
      · have := trailEdges_head hn he (Or.inl x)
        rw [this] at x; simp only at x
        rw [x] at hn; simp at hn
      · have := trailEdges_head hn he (Or.inr y)
        rw [this] at x; exact hvu x.symm
    obtain ⟨c', e1, hM', ho, hlt⟩ := walk_step h hM ha hb hjv hfresh (fun x hx => by
      rcases hv x hx with e | e
      · exact Or.inr ⟨(u, j, a, b), by simp [trailEdges], Or.inr ⟨e.symm, rfl⟩⟩
      · exact Or.inl e) (fun k => k == u0) f
    have hL' : ∀ e ∈ trailEdges a b (v :: j :: u :: r), FanLinked F i e.1 e.2.1 := by
      intro e he
      simp only [trailEdges, List.mem_cons] at he
      rcases he with rfl | he
      · exact hjv
      · exact hL e (by simpa [trailEdges] using he)
    by_cases hstop : v = u0
    · refine ⟨j :: u :: r, c', by rw [e1]; simp [hstop], hn, ?_, hlast, hstop ▸ hL', by rw [← hstop]; exact hM', ho, List.suffix_refl _⟩
      cases r with
      | nil => simp at hlast; exact absurd (hstop.trans hlast.symm) hvu
      | cons x r => simp
    · have hvj : v ≠ j := by
        obtain ⟨s, hx⟩ := hjv
        exact (h.distinct s (h.all _ _ _ hx) _ _ hx).symm
      have hnew : v ∉ j :: u :: r := by
        intro hm
        rcases List.mem_cons.1 hm with e | hm
        · exact hvj e
        · obtain ⟨x, y, hxy, hx, hy⟩ := trailEdges_inner (a := a) (b := b) (u :: r) j v hn hm (by rw [hlast]; simpa using fun e => hstop e.symm)
          obtain ⟨z, -, -, hz⟩ := h2 v y (hL _ hy)
          have hjz : j ≠ y := by
            intro e; subst e
            have := trailEdges_head hn hy (Or.inl rfl)
            simp at this
            rw [this.1] at hn; simp at hn
          have hjx : j ≠ x := by
            intro e; subst e
            have := trailEdges_head hn hx (Or.inr rfl)
            simp at this
            exact hvu this
          rcases hz j hjv.symm with e | e
          · exact hjz e
          · rcases hz x (hL _ hx) with e' | e'
            · exact hxy e'
            · exact hjx (e.trans e'.symm)
      obtain ⟨t, c2, e2, q1, q2, q3, q4, q5, q6, q7⟩ := ring_walk h h2 ha hb f v j (u :: r) c' (List.nodup_cons.2 ⟨hnew, hn⟩) (by simpa using hlast) hL' hM' (by omega)
      refine ⟨t, c2, ?_, q1, q2, q3, q4, q5, fun x hx => (q6 x hx).trans (ho x hx), (List.suffix_cons v _).trans q7⟩
      rw [e1, if_neg (by simpa using hstop)]; exact e2

theorem clearMarks_spec {F : FanEnv} : ∀ (l : List Nat) (c : Nat → Nat), (∀ s ∈ l, s < F.attr.length) →
    clearMarks F l c = some fun s => if s ∈ l then 0 else c s
  | [], c, _ => by simp [clearMarks]
  | s :: l, c, h => by
    rw [clearMarks, if_pos (h s (by simp)), clearMarks_spec l _ fun t ht => h t (by simp [ht])]
    congr 1; funext t
    by_cases ht : t = s
    · subst ht; by_cases hl : t ∈ l <;> simp [hl, upd]
    · by_cases hl : t ∈ l <;> simp [hl, upd, ht]

theorem unmarked_le (l : List Nat) (c : Nat → Nat) : unmarked l c ≤ l.length :=
  (Finset.card_filter_le _ _).trans (List.toFinset_card_le l)

/-- A closed ring of spheres, listed against its orientation with the first sphere at both ends. -/
structure ClosedRing (R : Nat → Nat → Prop) (u0 : Nat) (t : List Nat) : Prop where
  nodup : t.Nodup
  three : 3 ≤ t.length
  last : t.getLast? = some u0
  linked : ∀ e ∈ trailEdges 1 2 (u0 :: t), R e.1 e.2.1

theorem markFan_spec {F : FanEnv} {i : Nat} {s0 : Nat} {l : List Nat} (h : PairsAround F i (s0 :: l)) (h2 : ∀ w, TwoTriangles F i w) (c : Nat → Nat) :
    ∃ u0 t c', markFan F i (s0 :: l) ((s0 :: l).length + 1) c = some (some c') ∧ ClosedRing (FanLinked F i) u0 t ∧
      Marked F i (s0 :: l) (trailEdges 1 2 (u0 :: t)) c' ∧ (∀ x, x ∉ s0 :: l → c' x = c x) ∧ ∃ e ∈ trailEdges 1 2 (u0 :: t), Spokes F i s0 e.1 e.2.1 := by
  have hlt : ∀ s ∈ s0 :: l, s < F.attr.length := fun s hs => by
    obtain ⟨p, -, -, x, -⟩ := h.partner s hs
    exact x.lt
  obtain ⟨u, v, hs⟩ := h.around s0 (by simp)
  obtain ⟨p, u, v, e⟩ : ∃ p u v, turned F i s0 = some (p, u, v) := by
    obtain ⟨p, e | e⟩ := turned_of_spokes hs <;> exact ⟨_, _, _, e⟩
  obtain ⟨h3, h4⟩ := turned_some e
  have hM0 : Marked F i (s0 :: l) [] fun s => if s ∈ s0 :: l then 0 else c s := ⟨fun s hs => by simp only [if_pos hs]; simp, fun _ _ _ _ _ he => by simp at he⟩
  obtain ⟨c1, e1, hM1, ho1⟩ := markPair_spec h hM0 (a := 1) (b := 2) (by simp) (by simp) (by simp) h4 h3 (by simp)
  have huv := h.distinct s0 (by simp) u v h3
  obtain ⟨t, c2, e2, q1, q2, q3, q4, q5, q6, q7⟩ := ring_walk h h2 (a := 1) (b := 2) (u0 := u) (by simp) (by simp) ((s0 :: l).length + 1) v u [] c1
    (by simp [huv.symm]) (by simp) (by simp [trailEdges]; exact ⟨s0, h3⟩) (by simpa [trailEdges] using hM1) (by have := unmarked_le (s0 :: l) c1; omega)
  refine ⟨u, t, c2, ?_, ⟨q1, q2, q3, q4⟩, q5, fun x hx => ?_, (u, v, 1, 2), ?_, h3⟩
  · unfold markFan
    rw [clearMarks_spec _ _ hlt]
    simp only
    rw [e]; simp only
    rw [e1]; exact e2
  · rw [q6 x hx, ho1 x hx, if_neg hx]
  · obtain ⟨pre, rfl⟩ := q7
    have : ∀ pre : List Nat, ∀ w, (u, v, 1, 2) ∈ trailEdges 1 2 (w :: (pre ++ [v, u])) := by
      intro pre
      induction pre with
      | nil => intro w; simp [trailEdges]
      | cons x pre ih => intro w; exact List.mem_cons_of_mem _ (ih x)
    exact this pre u

/-! ## Marks and sides -/

theorem ring_next {R : Nat → Nat → Prop} {u0 : Nat} {t : List Nat} (h : ClosedRing R u0 t) : ∀ e ∈ trailEdges 1 2 (u0 :: t),
    (∃ v, v ≠ e.1 ∧ (e.2.1, v, 1, 2) ∈ trailEdges 1 2 (u0 :: t)) ∧ ∃ v, v ≠ e.2.1 ∧ (v, e.1, 1, 2) ∈ trailEdges 1 2 (u0 :: t) := by
  obtain ⟨hn, h3, hl, -⟩ := h
  obtain ⟨a, b, r, rfl⟩ : ∃ a b r, t = a :: b :: r := by
    match t, h3 with
    | a :: b :: r, _ => exact ⟨a, b, r, rfl⟩
  -- predecessor of the last sphere
  have hlastEdge : ∀ (r : List Nat) (w z : Nat), (w :: z :: r).getLast? = some u0 → ∃ x, (u0, x, 1, 2) ∈ trailEdges 1 2 (w :: z :: r) ∧ (r ≠ [] → x ∈ z :: r) := by
    intro r
    induction r with
    | nil => intro w z hz; simp at hz; subst hz; exact ⟨w, by simp [trailEdges], by simp⟩
    | cons y r ih =>
      intro w z hz
      obtain ⟨x, hx, hx'⟩ := ih z y (by simpa using hz)
      refine ⟨x, List.mem_cons_of_mem _ hx, fun _ => ?_⟩
      have := (trailEdges_mem _ _ hx).2.1
      simpa using this
  obtain ⟨x0, hx0, hx0'⟩ := hlastEdge r a b hl
  have hx0a : x0 ≠ a := by
    cases r with
    | nil => simp at h3
    | cons y r =>
      intro e
      have := hx0' (by simp)
      rw [e] at this
      exact (List.nodup_cons.1 hn).1 this
  have hu0 : u0 ≠ a := by
    intro e
    have : u0 ∈ b :: r := List.mem_of_getLast? (by simpa using hl)
    rw [e] at this
    exact (List.nodup_cons.1 hn).1 this
  have hins : ∀ e, e ∈ trailEdges 1 2 (a :: b :: r) → e ∈ trailEdges 1 2 (u0 :: a :: b :: r) := fun e he => List.mem_cons_of_mem _ he
  -- a sphere other than the two ends
  have hin : ∀ v ∈ b :: r, v ≠ u0 → ∃ x y, x ≠ y ∧ (v, x, 1, 2) ∈ trailEdges 1 2 (a :: b :: r) ∧ (y, v, 1, 2) ∈ trailEdges 1 2 (a :: b :: r) :=
    fun v hv hne => trailEdges_inner (b :: r) a v hn hv (by rw [hl]; simpa using hne.symm)
  -- uniqueness
  have huniq : ∀ (r : List Nat) (w : Nat), (w :: r).Nodup → ∀ x y z, (x, y, 1, 2) ∈ trailEdges 1 2 (w :: r) → (x, z, 1, 2) ∈ trailEdges 1 2 (w :: r) → y = z := by
    intro r
    induction r with
    | nil => intro w _ x y z h; simp [trailEdges] at h
    | cons q r ih =>
      intro w hn x y z h1 h2
      simp only [trailEdges, List.mem_cons, Prod.mk.injEq, and_true] at h1 h2
      have key : ∀ y, (q, y, 1, 2) ∉ trailEdges 1 2 (q :: r) := by
        intro y hy
        have := (trailEdges_mem _ _ hy).1
        simp only [List.tail_cons] at this
        exact (List.nodup_cons.1 (List.nodup_cons.1 hn).2).1 this
      rcases h1 with ⟨rfl, rfl⟩ | h1
      · rcases h2 with ⟨-, rfl⟩ | h2
        · rfl
        · exact absurd h2 (key _)
      · rcases h2 with ⟨rfl, rfl⟩ | h2
        · exact absurd h1 (key _)
        · exact ih q (List.nodup_cons.1 hn).2 x y z h1 h2
  have huniq' : ∀ (r : List Nat) (w : Nat), (w :: r).Nodup → ∀ x y z, (y, x, 1, 2) ∈ trailEdges 1 2 (w :: r) → (z, x, 1, 2) ∈ trailEdges 1 2 (w :: r) → y = z := by
    intro r
    induction r with
    | nil => intro w _ x y z h; simp [trailEdges] at h
    | cons q r ih =>
      intro w hn x y z h1 h2
      simp only [trailEdges, List.mem_cons, Prod.mk.injEq, and_true] at h1 h2
      have key : ∀ y, (y, w, 1, 2) ∉ trailEdges 1 2 (q :: r) := by
        intro y hy
        have := (trailEdges_mem _ _ hy).2.1
        exact (List.nodup_cons.1 hn).1 this
      rcases h1 with ⟨rfl, rfl⟩ | h1
      · rcases h2 with ⟨rfl, -⟩ | h2
        · rfl
        · exact absurd h2 (key _)
      · rcases h2 with ⟨rfl, rfl⟩ | h2
        · exact absurd h1 (key _)
        · exact ih q (List.nodup_cons.1 hn).2 x y z h1 h2
  intro e he
  rw [trailEdges, List.mem_cons] at he
  rcases he with rfl | he
  · -- the closing edge
    refine ⟨⟨x0, hx0a, hins _ hx0⟩, b, ?_, hins _ (by simp [trailEdges])⟩
    intro e
    simp only at e
    cases r with
    | nil => simp at h3
    | cons y r =>
      have : u0 ∈ y :: r := List.mem_of_getLast? (by simpa using hl)
      rw [← e] at this
      exact (List.nodup_cons.1 (List.nodup_cons.1 hn).2).1 this
  · obtain ⟨e1, e2, e3⟩ := trailEdges_mem _ _ he
    obtain ⟨p, q, m, n⟩ := e
    simp only [Prod.mk.injEq] at e1 e2 e3
    obtain ⟨rfl, rfl⟩ := e3
    simp only [List.tail_cons] at e1
    refine ⟨?_, ?_⟩
    · rcases List.mem_cons.1 e2 with rfl | e2
      · refine ⟨u0, ?_, by simp [trailEdges]⟩
        intro e
        simp only at e
        subst e
        have h1 := trailEdges_head hn he (Or.inr rfl)
        simp only [Prod.mk.injEq, and_true] at h1
        subst h1
        cases r with
        | nil => simp at h3
        | cons y r =>
          have : u0 ∈ y :: r := List.mem_of_getLast? (by simpa using hl)
          exact (List.nodup_cons.1 (List.nodup_cons.1 hn).2).1 this
      · by_cases hq : q = u0
        · subst hq
          exfalso
          -- the last sphere has no predecessor within the trail
          have : ∀ (r : List Nat) (w : Nat), (w :: r).Nodup → (w :: r).getLast? = some q → ∀ y, (y, q, 1, 2) ∉ trailEdges 1 2 (w :: r) := by
            intro r
            induction r with
            | nil => intro w _ _ y hy; simp [trailEdges] at hy
            | cons z r ih =>
              intro w hn hl y hy
              simp only [trailEdges, List.mem_cons, Prod.mk.injEq, and_true] at hy
              rcases hy with ⟨rfl, rfl⟩ | hy
              · exact (List.nodup_cons.1 hn).1 (List.mem_of_getLast? (by simpa using hl))
              · exact ih z (List.nodup_cons.1 hn).2 (by simpa using hl) y hy
          exact this _ _ hn hl p he
        · obtain ⟨x, y, hxy, hx, hy⟩ := hin q e2 hq
          have : y = p := huniq' _ _ hn _ _ _ hy he
          exact ⟨x, fun e => hxy (e.trans this.symm), hins _ hx⟩
    · by_cases hp : p = u0
      · subst hp
        have : q = x0 := huniq _ _ hn _ _ _ he hx0
        exact ⟨a, fun e => hx0a (this.symm.trans e.symm), by simp [trailEdges]⟩
      · obtain ⟨x, y, hxy, hx, hy⟩ := hin p e1 hp
        have : x = q := huniq _ _ hn _ _ _ hx he
        exact ⟨y, fun e => hxy (this.trans e.symm), hins _ hy⟩

/-- The triangle `i`, `u`, `w` is on the ring, in one of the two directions. -/
def OnRing (u0 : Nat) (t : List Nat) (u w : Nat) : Prop := (u, w, 1, 2) ∈ trailEdges 1 2 (u0 :: t) ∨ (w, u, 1, 2) ∈ trailEdges 1 2 (u0 :: t)

/-- All spheres around `i` are joined by triangles around `i`: one fan. -/
def OneFan (F : FanEnv) (i : Nat) : Prop :=
  ∀ u v, (∃ x, FanLinked F i u x) → (∃ y, FanLinked F i v y) → Relation.ReflTransGen (FanLinked F i) u v

section sides
variable {F : FanEnv} {i : Nat} {l : List Nat} {u0 : Nat} {t : List Nat} {c : Nat → Nat}

theorem onRing_next (h2 : ∀ w, TwoTriangles F i w) (hR : ClosedRing (FanLinked F i) u0 t) {u w v : Nat} (huv : u ≠ v) (hv : FanLinked F i w v) :
    ((u, w, 1, 2) ∈ trailEdges 1 2 (u0 :: t) → (w, v, 1, 2) ∈ trailEdges 1 2 (u0 :: t)) ∧
      ((w, u, 1, 2) ∈ trailEdges 1 2 (u0 :: t) → (v, w, 1, 2) ∈ trailEdges 1 2 (u0 :: t)) := by
  have key : ∀ x, FanLinked F i u w → x ≠ u → FanLinked F i w x → x = v := by
    intro x hu hx hx'
    obtain ⟨z, -, -, hz⟩ := h2 w u hu
    rcases hz x hx' with e | e
    · exact absurd e hx
    · rcases hz v hv with e' | e'
      · exact absurd e'.symm huv
      · exact e.trans e'.symm
  constructor
  · intro h
    obtain ⟨⟨x, hx, hx'⟩, -⟩ := ring_next hR _ h
    rw [← key x (hR.linked _ h) hx (hR.linked _ hx')]; exact hx'
  · intro h
    obtain ⟨-, x, hx, hx'⟩ := ring_next hR _ h
    rw [← key x (hR.linked _ h).symm hx (hR.linked _ hx').symm]; exact hx'

theorem onRing_vertex (h2 : ∀ w, TwoTriangles F i w) (hR : ClosedRing (FanLinked F i) u0 t) {u w x : Nat} (h : OnRing u0 t u w) (hx : FanLinked F i w x) : OnRing u0 t w x := by
  by_cases e : u = x
  · rw [← e]; exact h.symm
  · rcases h with h | h
    · exact Or.inl ((onRing_next h2 hR e hx).1 h)
    · exact Or.inr ((onRing_next h2 hR e hx).2 h)

theorem all_onRing (h2 : ∀ w, TwoTriangles F i w) (hR : ClosedRing (FanLinked F i) u0 t) (h1 : OneFan F i) {a b : Nat} (hab : FanLinked F i a b) : OnRing u0 t a b := by
  obtain ⟨x, r, rfl⟩ : ∃ x r, t = x :: r := by
    cases t with
    | nil => have := hR.three; simp at this
    | cons x r => exact ⟨x, r, rfl⟩
  have he : (x, u0, 1, 2) ∈ trailEdges 1 2 (u0 :: x :: r) := by simp [trailEdges]
  have hreach := h1 u0 a ⟨x, (hR.linked _ he).symm⟩ ⟨b, hab⟩
  have : ∀ y, FanLinked F i a y → OnRing u0 (x :: r) a y := by
    clear hab
    induction hreach with
    | refl => exact fun y hy => onRing_vertex h2 hR (Or.inl he) hy
    | tail _ hbc ih => exact fun y hy => onRing_vertex h2 hR (ih _ hbc) hy
  exact this b hab

theorem mark_value (hM : Marked F i l (trailEdges 1 2 (u0 :: t)) c) (h : PairsAround F i l) {s p u w : Nat} (hs : s ∈ l) (hp : Partner F s p) (hsp : Spokes F i s u w)
    (he : OnRing u0 t u w) : ((u, w, 1, 2) ∈ trailEdges 1 2 (u0 :: t) → c s = if PairBelow F i u w s p then 1 else 2) ∧
      ((w, u, 1, 2) ∈ trailEdges 1 2 (u0 :: t) → c s = if PairBelow F i u w s p then 2 else 1) := by
  constructor
  · exact fun h => hM.value s hs p hp (u, w, 1, 2) h hsp
  · intro h'
    have e := hM.value s hs p hp (w, u, 1, 2) h' hsp.symm
    rw [e]; simp only
    rw [below_swap (h.sides s hs p u w hp hsp).2]
    by_cases hB : PairBelow F i u w s p <;> simp [hB]

theorem mark_turn (h : PairsAround F i l) (h2 : ∀ w, TwoTriangles F i w) (hR : ClosedRing (FanLinked F i) u0 t) (hM : Marked F i l (trailEdges 1 2 (u0 :: t)) c) {s s' p q u w v : Nat}
    (hs : s ∈ l) (hs' : s' ∈ l) (hp : Partner F s p) (hq : Partner F s' q) (hsp : Spokes F i s u w) (hsp' : Spokes F i s' w v) (huv : u ≠ v) (he : OnRing u0 t u w) :
    c s = c s' ↔ (PairBelow F i u w s p ↔ PairBelow F i w v s' q) := by
  have hn := onRing_next h2 hR huv (⟨s', hsp'⟩ : FanLinked F i w v)
  have m1 := mark_value hM h hs hp hsp he
  have m2 := mark_value hM h hs' hq hsp' (he.imp hn.1 hn.2)
  rcases he with he | he
  · rw [m1.1 he, m2.1 (hn.1 he)]
    by_cases a : PairBelow F i u w s p <;> by_cases b : PairBelow F i w v s' q <;> simp [a, b]
  · rw [m1.2 he, m2.2 (hn.2 he)]
    by_cases a : PairBelow F i u w s p <;> by_cases b : PairBelow F i w v s' q <;> simp [a, b]

theorem mark_partner (h : PairsAround F i l) (hM : Marked F i l (trailEdges 1 2 (u0 :: t)) c) {s p u w : Nat}
    (hs : s ∈ l) (hp : Partner F s p) (hsp : Spokes F i s u w) (he : OnRing u0 t u w) : c s ≠ c p ∧ (c s = 1 ∨ c s = 2) ∧ (c p = 1 ∨ c p = 2) := by
  obtain ⟨p', hp', -, h1, h3, h4⟩ := h.partner s hs
  obtain rfl := h1.unique hp
  have m1 := mark_value hM h hs hp hsp he
  have m2 := mark_value hM h hp' h3 (h4 _ _ hsp) he
  have hB := below_partner (h.sides s hs p' u w hp hsp).2
  rcases he with he | he
  · rw [m1.1 he, m2.1 he]
    by_cases a : PairBelow F i u w s p' <;> simp [a, hB]
  · rw [m1.2 he, m2.2 he]
    by_cases a : PairBelow F i u w s p' <;> simp [a, hB]

/-- Around one fan, equal marks mean the same side. -/
theorem mark_sameSide (h : PairsAround F i l) (h2 : ∀ w, TwoTriangles F i w) (hR : ClosedRing (FanLinked F i) u0 t) (h1 : OneFan F i)
    (hM : Marked F i l (trailEdges 1 2 (u0 :: t)) c) {s s' : Nat} (hs : s ∈ l) (hs' : s' ∈ l) : c s = c s' ↔ SameSide F i s s' := by
  constructor
  · intro e
    obtain ⟨u, w, hsp⟩ := h.around s hs
    obtain ⟨a, b, hsp'⟩ := h.around s' hs'
    obtain ⟨p, hp, hps, hsP, hPs, hsame⟩ := h.partner s hs
    -- at every sphere `x` reached, the seeds with the mark of `s` are on its side
    have key : ∀ x, Relation.ReflTransGen (FanLinked F i) w x → ∀ r ∈ l, ∀ y, Spokes F i r x y → c s = c r → SameSide F i s r := by
      intro x hx
      induction hx with
      | refl =>
        intro r hr y hry e
        obtain ⟨q, -, -, hq, -⟩ := h.partner r hr
        have hon := all_onRing h2 hR h1 (⟨s, hsp⟩ : FanLinked F i u w)
        by_cases huy : u = y
        · subst huy
          rcases h.only s hs r hr u w hsp hry.symm with rfl | hh
          · exact .refl
          · exact absurd e (mark_partner h hM hs hh hsp hon).1
        · exact .single ⟨u, w, y, p, q, huy, hsp, hry, hsP, hq, (mark_turn h h2 hR hM hs hr hsP hq hsp hry huy hon).1 e⟩
      | @tail x z _ hxy ih =>
        intro r hr y hry e
        obtain ⟨r0, hr0s⟩ := hxy
        have hr0 := h.all _ _ _ hr0s
        have hon := all_onRing h2 hR h1 (⟨r0, hr0s⟩ : FanLinked F i x z)
        -- one of the two seeds of the triangle passed has the mark
        obtain ⟨r1, hr1, hr1s, e1⟩ : ∃ r1 ∈ l, Spokes F i r1 x z ∧ c s = c r1 := by
          obtain ⟨q, hq, -, hq1, -, hq2⟩ := h.partner r0 hr0
          obtain ⟨m1, m2, m3⟩ := mark_partner h hM hr0 hq1 hr0s hon
          have m4 := (mark_partner h hM hs hsP hsp (all_onRing h2 hR h1 ⟨s, hsp⟩)).2.1
          by_cases hc : c s = c r0
          · exact ⟨r0, hr0, hr0s, hc⟩
          · exact ⟨q, hq, hq2 _ _ hr0s, by omega⟩
        have hss := ih r1 hr1 z hr1s e1
        obtain ⟨q1, -, -, hq1, -⟩ := h.partner r1 hr1
        obtain ⟨q, -, -, hq, -⟩ := h.partner r hr
        by_cases hxy : x = y
        · subst hxy
          rcases h.only r1 hr1 r hr x z hr1s hry.symm with rfl | hh
          · exact hss
          · exact absurd (e1.symm.trans e) (mark_partner h hM hr1 hh hr1s hon).1
        · exact hss.tail ⟨x, z, y, q1, q, hxy, hr1s, hry, hq1, hq, (mark_turn h h2 hR hM hr1 hr hq1 hq hr1s hry hxy hon).1 (e1.symm.trans e)⟩
    exact key a (h1 w a ⟨u, s, hsp.symm⟩ ⟨b, s', hsp'⟩) s' hs' b hsp' e
  · intro hss
    clear hs'
    induction hss with
    | refl => rfl
    | tail _ hst ih =>
      obtain ⟨u, w, v, p, q, huv, k1, k2, k3, k4, k5⟩ := hst
      exact ih.trans ((mark_turn h h2 hR hM (h.all _ _ _ k1) (h.all _ _ _ k2) k3 k4 k1 k2 huv (all_onRing h2 hR h1 ⟨_, k1⟩)).2 k5)

end sides

/-! ## Graphs -/

/-- A graph with relation `R` that is read without surprises. -/
structure GraphOk (cap : Nat) (g : Graph) (R : Nat → Nat → Prop) : Prop where
  inv : g.Inv cap R
  ready : g.rows ≠ none → cap ≤ g.cap
  full : ∀ k e, g.row k = some e → e.num ≠ 0

theorem GraphOk.congr {cap : Nat} {g : Graph} {R S : Nat → Nat → Prop} (h : GraphOk cap g R) (hRS : ∀ a b, R a b ↔ S a b) : GraphOk cap g S :=
  ⟨h.inv.congr hRS, h.ready, h.full⟩

theorem graphConnect_full {n c i j code : Nat} {g g' : Graph} (h : graphConnect n c g i j = some (code, g')) (hg : ∀ k e, g.row k = some e → e.num ≠ 0) :
    ∀ k e, g'.row k = some e → e.num ≠ 0 := by
  unfold graphConnect at h
  by_cases hi : n ≤ i
  · rw [if_pos hi] at h; simp only [Option.some.injEq, Prod.mk.injEq] at h; rw [← h.2]; exact hg
  · rw [if_neg hi] at h
    have hE : ∀ k e, (g.enlarge c).row k = some e → e.num ≠ 0 := by
      intro k e hk
      unfold Graph.enlarge at hk
      cases hr : g.rows with
      | none => simp [hr, Graph.row] at hk
      | some rows =>
        simp only [hr] at hk
        split at hk
        · simp only [Graph.row] at hk
          by_cases h1 : k < c
          · rw [if_pos h1] at hk
            by_cases h2 : k < g.cap
            · rw [if_pos h2] at hk
              exact hg k e (by simp [Graph.row, hr, h2, hk])
            · rw [if_neg h2] at hk; cases hk
          · rw [if_neg h1] at hk; cases hk
        · exact hg k e hk
    simp only at h
    cases hr : (g.enlarge c).rows with
    | none => simp [hr] at h
    | some rows =>
      simp only [hr] at h
      have hrow : ∀ k, k < (g.enlarge c).cap → ∀ e, rows k = some e → e.num ≠ 0 := fun k hk e he => hE k e (by simp [Graph.row, hr, hk, he])
      by_cases hic : i < (g.enlarge c).cap
      · rw [if_pos hic] at h
        cases hcon : graphConnected { g.enlarge c with rows := some (ensureRow rows i) } i j with
        | none => simp [hcon] at h
        | some b =>
          simp only [hcon] at h
          cases b with
          | true =>
            simp only [Option.some.injEq, Prod.mk.injEq] at h
            rw [← h.2]
            -- a list that was just allocated is empty, so nothing is found in it
            cases hri : rows i with
            | none =>
              exfalso
              simp [graphConnected, ensureRow, hri, upd, EdgeList.scan, Nat.not_le.2 hic] at hcon
            | some e0 =>
              intro k e hk
              have : ensureRow rows i = rows := by simp [ensureRow, hri]
              rw [this] at hk
              exact hE k e (by simpa [Graph.row, hr] using hk)
          | false =>
            cases hei : ensureRow rows i i with
            | none => simp [hei] at h
            | some e0 =>
              simp only [hei] at h
              split at h
              · simp only [Option.some.injEq, Prod.mk.injEq] at h
                rw [← h.2]
                intro k e hk
                simp only [Graph.row] at hk
                split at hk
                · next hkc =>
                  by_cases hki : k = i
                  · subst hki
                    simp only [upd, if_true, Option.some.injEq] at hk
                    rw [← hk]
                    split <;> simp
                  · simp only [upd, hki, if_false] at hk
                    have : ensureRow rows i k = rows k := by
                      unfold ensureRow; cases rows i <;> simp [upd, hki]
                    rw [this] at hk
                    exact hrow k hkc e hk
                · cases hk
              · simp at h
      · rw [if_neg hic] at h; simp at h

theorem graphConnect_ok {n cap : Nat} {g : Graph} {R : Nat → Nat → Prop} (h : GraphOk cap g R) (hn : n ≤ cap) {i j : Nat} (hi : i < n) :
    ∃ code g', graphConnect n cap g i j = some (code, g') ∧ GraphOk cap g' (fun a b => R a b ∨ (a = i ∧ b = j)) ∧ g'.rows ≠ none := by
  obtain ⟨code, g', e, hI⟩ := graphConnect_spec h.inv hn i j
  obtain ⟨h1, h2⟩ := graphConnect_cap hi e
  exact ⟨code, g', e, ⟨hI.congr fun a b => by simp [hi], fun _ => h2, graphConnect_full e h.full⟩, h1⟩

theorem graphConnectNodes_ok {n cap : Nat} {g : Graph} {R : Nat → Nat → Prop} (h : GraphOk cap g R) (hn : n ≤ cap) {i j : Nat} (hi : i < n) (hj : j < n) :
    ∃ g', graphConnectNodes n cap g i j = some g' ∧ GraphOk cap g' (fun a b => R a b ∨ (a = i ∧ b = j) ∨ (a = j ∧ b = i)) ∧ g'.rows ≠ none := by
  obtain ⟨code, g', e, h', -⟩ := graphConnect_ok h hn (j := j) hi
  obtain ⟨code2, g2, e2, h2, hr⟩ := graphConnect_ok h' hn (j := i) hj
  refine ⟨g2, by unfold graphConnectNodes; rw [e]; simp only; rw [e2]; rfl, h2.congr fun a b => ?_, hr⟩
  rw [or_assoc]

theorem neighbors_ok {cap : Nat} {g : Graph} {R : Nat → Nat → Prop} (h : GraphOk cap g R) (hr : g.rows ≠ none) {i : Nat} (hi : i < cap) :
    (graphNeighbors g i = some none ∧ ∀ j, ¬ R i j) ∨ ∃ l, graphNeighbors g i = some (some l) ∧ l ≠ [] ∧ l.Nodup ∧ ∀ j, j ∈ l ↔ R i j := by
  have hlt := lt_of_lt_of_le hi (h.ready hr)
  have hrel := h.inv.rel i
  cases hrow : g.rows with
  | none => exact absurd hrow hr
  | some rows =>
    cases he : rows i with
    | none =>
      left
      have e : graphNeighbors g i = some none := by simp [graphNeighbors, hrow, hlt, he]
      refine ⟨e, fun j hj => ?_⟩
      have := (hrel j).2 hj
      simp [storedNeighbors, e] at this
    | some el =>
      right
      have e : graphNeighbors g i = some (some ((List.range el.num).map el.cells)) := by simp [graphNeighbors, hrow, hlt, he]
      have hgr : g.row i = some el := by simp [Graph.row, hrow, hlt, he]
      refine ⟨_, e, ?_, (h.inv.rows i el hgr).nodup, fun j => ?_⟩
      · have := h.full i el hgr
        simp [this]
      · rw [← hrel j]; simp [storedNeighbors, e]

theorem joinTo_spec {n cap : Nat} (c : Nat → Nat) {s : Nat} (hn : n ≤ cap) (hs : s < n) : ∀ (l : List Nat) (g : Graph) (R : Nat → Nat → Prop), GraphOk cap g R → (∀ t ∈ l, t < n) →
    ∃ g', joinTo n cap c s l g = some g' ∧ GraphOk cap g' (fun a b => R a b ∨ (a = s ∧ b ∈ l ∧ c a = c b) ∨ (b = s ∧ a ∈ l ∧ c a = c b)) ∧ (g.rows ≠ none → g'.rows ≠ none)
  | [], g, R, h, _ => ⟨g, rfl, h.congr fun a b => by simp, id⟩
  | t :: l, g, R, h, hl => by
    unfold joinTo
    by_cases hc : c s = c t
    · obtain ⟨g1, e1, h1, hr1⟩ := graphConnectNodes_ok h hn hs (hl t (by simp))
      obtain ⟨g2, e2, h2, hr2⟩ := joinTo_spec c hn hs l g1 _ h1 (fun x hx => hl x (by simp [hx]))
      refine ⟨g2, by rw [if_pos hc, e1]; exact e2, h2.congr fun a b => ?_, fun _ => hr2 hr1⟩
      constructor
      · rintro ((h | ⟨rfl, rfl⟩ | ⟨rfl, rfl⟩) | ⟨rfl, x, y⟩ | ⟨rfl, x, y⟩)
        · exact Or.inl h
        · exact Or.inr (Or.inl ⟨rfl, by simp, hc⟩)
        · exact Or.inr (Or.inr ⟨rfl, by simp, hc.symm⟩)
        · exact Or.inr (Or.inl ⟨rfl, by simp [x], y⟩)
        · exact Or.inr (Or.inr ⟨rfl, by simp [x], y⟩)
      · rintro (h | ⟨rfl, x, y⟩ | ⟨rfl, x, y⟩)
        · exact Or.inl (Or.inl h)
        · rcases List.mem_cons.1 x with rfl | x
          · exact Or.inl (Or.inr (Or.inl ⟨rfl, rfl⟩))
          · exact Or.inr (Or.inl ⟨rfl, x, y⟩)
        · rcases List.mem_cons.1 x with rfl | x
          · exact Or.inl (Or.inr (Or.inr ⟨rfl, rfl⟩))
          · exact Or.inr (Or.inr ⟨rfl, x, y⟩)
    · obtain ⟨g2, e2, h2, hr2⟩ := joinTo_spec c hn hs l g _ h (fun x hx => hl x (by simp [hx]))
      refine ⟨g2, by rw [if_neg hc]; exact e2, h2.congr fun a b => ?_, hr2⟩
      constructor
      · rintro (h | ⟨rfl, x, y⟩ | ⟨rfl, x, y⟩)
        · exact Or.inl h
        · exact Or.inr (Or.inl ⟨rfl, by simp [x], y⟩)
        · exact Or.inr (Or.inr ⟨rfl, by simp [x], y⟩)
      · rintro (h | ⟨rfl, x, y⟩ | ⟨rfl, x, y⟩)
        · exact Or.inl h
        · rcases List.mem_cons.1 x with rfl | x
          · exact absurd y hc
          · exact Or.inr (Or.inl ⟨rfl, x, y⟩)
        · rcases List.mem_cons.1 x with rfl | x
          · exact absurd y.symm hc
          · exact Or.inr (Or.inr ⟨rfl, x, y⟩)

theorem joinEqual_spec {n cap : Nat} (c : Nat → Nat) (hn : n ≤ cap) : ∀ (l : List Nat) (g : Graph) (R : Nat → Nat → Prop), GraphOk cap g R → (∀ t ∈ l, t < n) → l.Nodup →
    ∃ g', joinEqual n cap c l g = some g' ∧ GraphOk cap g' (fun a b => R a b ∨ (a ∈ l ∧ b ∈ l ∧ a ≠ b ∧ c a = c b)) ∧ (g.rows ≠ none → g'.rows ≠ none)
  | [], g, R, h, _, _ => ⟨g, rfl, h.congr fun a b => by simp, id⟩
  | s :: l, g, R, h, hl, hd => by
    obtain ⟨g1, e1, h1, hr1⟩ := joinTo_spec c hn (hl s (by simp)) l g R h (fun x hx => hl x (by simp [hx]))
    obtain ⟨g2, e2, h2, hr2⟩ := joinEqual_spec c hn l g1 _ h1 (fun x hx => hl x (by simp [hx])) (List.nodup_cons.1 hd).2
    have hs := (List.nodup_cons.1 hd).1
    refine ⟨g2, by unfold joinEqual; rw [e1]; exact e2, h2.congr fun a b => ?_, fun x => hr2 (hr1 x)⟩
    constructor
    · rintro ((h | ⟨rfl, x, y⟩ | ⟨rfl, x, y⟩) | ⟨x, y, z, w⟩)
      · exact Or.inl h
      · exact Or.inr ⟨by simp, by simp [x], fun e => hs (e ▸ x), y⟩
      · exact Or.inr ⟨by simp [x], by simp, fun e => hs (e ▸ x), y⟩
      · exact Or.inr ⟨by simp [x], by simp [y], z, w⟩
    · rintro (h | ⟨x, y, z, w⟩)
      · exact Or.inl (Or.inl h)
      · rcases List.mem_cons.1 x with rfl | x
        · rcases List.mem_cons.1 y with rfl | y
          · exact absurd rfl z
          · exact Or.inl (Or.inr (Or.inl ⟨rfl, y, w⟩))
        · rcases List.mem_cons.1 y with rfl | y
          · exact Or.inl (Or.inr (Or.inr ⟨rfl, by assumption, w⟩))
          · exact Or.inr ⟨by assumption, y, z, w⟩

theorem linkSpheres_spec {n cap : Nat} (hn : n ≤ cap) : ∀ (l : List SeedAttr) (q : Nat) (g : Graph) (R : Nat → Nat → Prop), GraphOk cap g R → (∀ a ∈ l, a.s1 < n ∧ a.s2 < n ∧ a.s3 < n) →
    ∃ g', linkSpheres n cap l q g = some g' ∧ GraphOk cap g' (fun i s => R i s ∨ ∃ m a, l[m]? = some a ∧ s = q + m ∧ (i = a.s1 ∨ i = a.s2 ∨ i = a.s3)) ∧
      (g.rows ≠ none ∨ l ≠ [] → g'.rows ≠ none)
  | [], q, g, R, h, _ => ⟨g, rfl, h.congr fun a b => by simp, by simp⟩
  | a :: l, q, g, R, h, hl => by
    obtain ⟨p1, p2, p3⟩ := hl a (by simp)
    obtain ⟨_, g1, e1, h1, -⟩ := graphConnect_ok h hn (j := q) p1
    obtain ⟨_, g2, e2, h2, -⟩ := graphConnect_ok h1 hn (j := q) p2
    obtain ⟨_, g3, e3, h3, r3⟩ := graphConnect_ok h2 hn (j := q) p3
    obtain ⟨g4, e4, h4, r4⟩ := linkSpheres_spec hn l (q + 1) g3 _ h3 (fun x hx => hl x (by simp [hx]))
    refine ⟨g4, by unfold linkSpheres; rw [e1]; simp only; rw [e2]; simp only; rw [e3]; exact e4, h4.congr fun i s => ?_, fun _ => r4 (Or.inl r3)⟩
    constructor
    · rintro ((((h | ⟨rfl, rfl⟩) | ⟨rfl, rfl⟩) | ⟨rfl, rfl⟩) | ⟨m, b, x, y, z⟩)
      · exact Or.inl h
      · exact Or.inr ⟨0, a, by simp, by simp, by simp⟩
      · exact Or.inr ⟨0, a, by simp, by simp, by simp⟩
      · exact Or.inr ⟨0, a, by simp, by simp, by simp⟩
      · exact Or.inr ⟨m + 1, b, by simpa using x, by omega, z⟩
    · rintro (h | ⟨m, b, x, y, z⟩)
      · exact Or.inl (Or.inl (Or.inl (Or.inl h)))
      · cases m with
        | zero =>
          simp only [List.getElem?_cons_zero, Option.some.injEq] at x
          subst x
          rcases z with z | z | z
          · exact Or.inl (Or.inl (Or.inl (Or.inr ⟨z, by omega⟩)))
          · exact Or.inl (Or.inl (Or.inr ⟨z, by omega⟩))
          · exact Or.inl (Or.inr ⟨z, by omega⟩)
        | succ m => exact Or.inr ⟨m, b, by simpa using x, by omega, z⟩

theorem emptyGraph_ok (cap k : Nat) : GraphOk cap { rows := none, cap := k } fun _ _ => False :=
  ⟨⟨fun h => absurd rfl h, fun i e h => by simp [Graph.row] at h, fun i j => by simp [storedNeighbors, graphNeighbors]⟩, fun h => absurd rfl h, fun k e h => by simp [Graph.row] at h⟩

theorem spokes_iff_mem {F : FanEnv} {i s : Nat} : (∃ u v, Spokes F i s u v) ↔ ∃ a, F.attr[s]? = some a ∧ (i = a.s1 ∨ i = a.s2 ∨ i = a.s3) := by
  constructor
  · rintro ⟨u, v, a, e, h⟩
    have := h.symm.subset (by simp : i ∈ [i, u, v])
    exact ⟨a, e, by simpa using this⟩
  · rintro ⟨a, e, rfl | rfl | rfl⟩
    · exact ⟨a.s2, a.s3, a, e, .refl _⟩
    · exact ⟨a.s3, a.s1, a, e, List.perm_append_comm (l₁ := [a.s1]) (l₂ := [a.s2, a.s3])⟩
    · exact ⟨a.s1, a.s2, a, e, List.perm_append_comm (l₁ := [a.s1, a.s2]) (l₂ := [a.s3])⟩

/-! ## C84 -/

/-- Every seed has a partner for the same three different spheres, no other pair has the same spheres, and partners lie on different sides of the triangle of the
centres, which is not degenerate. -/
structure PairedSeeds (F : FanEnv) : Prop where
  partner : ∀ (s : Nat) (a : SeedAttr), F.attr[s]? = some a → a.pair ≠ s ∧ ∃ b, F.attr[a.pair]? = some b ∧ b.pair = s ∧ [b.s1, b.s2, b.s3].Perm [a.s1, a.s2, a.s3]
  distinct : ∀ a ∈ F.attr, [a.s1, a.s2, a.s3].Nodup
  only : ∀ (s t : Nat) (a b : SeedAttr), F.attr[s]? = some a → F.attr[t]? = some b → [a.s1, a.s2, a.s3].Perm [b.s1, b.s2, b.s3] → t = s ∨ t = a.pair
  sides : ∀ (s : Nat) (a : SeedAttr), F.attr[s]? = some a → ∀ i u v, [a.s1, a.s2, a.s3].Perm [i, u, v] → (triNormal ![F.sphere i, F.sphere u, F.sphere v]).2 = true ∧
    dot3 (fun d => F.seed a.pair d - F.seed s d) (areaVec ![F.sphere i, F.sphere u, F.sphere v]) ≠ 0

theorem PairedSeeds.pairsAround {F : FanEnv} (h : PairedSeeds F) {i : Nat} {l : List Nat} (hn : l.Nodup) (hl : ∀ s, s ∈ l ↔ ∃ u v, Spokes F i s u v) : PairsAround F i l := by
  refine ⟨hn, fun s hs => (hl s).1 hs, fun s u v hs => (hl s).2 ⟨u, v, hs⟩, fun s hs => ?_, fun s hs u v => ?_, fun s hs t ht u v => ?_, fun s hs p u v => ?_⟩
  · obtain ⟨u, v, a, e, hp⟩ := (hl s).1 hs
    obtain ⟨h1, b, e', h2, h3⟩ := h.partner s a e
    refine ⟨a.pair, (hl _).2 ⟨u, v, b, e', h3.trans hp⟩, h1, ⟨a, e, rfl⟩, ⟨b, e', h2⟩, ?_⟩
    rintro u v ⟨a', e'', hp⟩
    rw [e] at e''; cases e''
    exact ⟨b, e', h3.trans hp⟩
  · rintro ⟨a, e, hp⟩
    have := hp.nodup (h.distinct a (List.mem_of_getElem? e))
    simp at this
    exact this.2
  · rintro ⟨a, e, hp⟩ ⟨b, e', hq⟩
    rcases h.only s t a b e e' (hp.trans hq.symm) with h | h
    · exact Or.inl h
    · exact Or.inr ⟨a, e, h.symm⟩
  · rintro ⟨a, e, rfl⟩ ⟨b, e', hq⟩
    rw [e] at e'; cases e'
    exact h.sides s a e i u v hq

/-- **C84, one sphere.** The seeds around a surface sphere that is surrounded by one closed fan of triangles: the walk ends, every seed gets a mark, partners get different marks,
and two seeds get the same mark exactly if a chain of neighbouring triangles leads from one to the other along one side. -/
theorem C84_fan_marks (F : FanEnv) (i : Nat) (l : List Nat) (h : PairsAround F i l) (hl : l ≠ []) (h2 : ∀ w, TwoTriangles F i w) (h1 : OneFan F i) (c : Nat → Nat) :
    ∃ c', markFan F i l (l.length + 1) c = some (some c') ∧ (∀ s ∈ l, c' s = 1 ∨ c' s = 2) ∧ (∀ s ∈ l, ∀ p, Partner F s p → c' s ≠ c' p) ∧
      (∀ s ∈ l, ∀ t ∈ l, c' s = c' t ↔ SameSide F i s t) ∧ ∀ x, x ∉ l → c' x = c x := by
  obtain ⟨s0, l, rfl⟩ : ∃ s0 l', l = s0 :: l' := by
    cases l with
    | nil => exact absurd rfl hl
    | cons s l => exact ⟨s, l, rfl⟩
  obtain ⟨u0, t, c', e, hR, hM, ho, -⟩ := markFan_spec h h2 c
  refine ⟨c', e, fun s hs => ?_, fun s hs p hp => ?_, fun s hs t ht => mark_sameSide h h2 hR h1 hM hs ht, ho⟩
  · obtain ⟨u, w, hu⟩ := h.around s hs
    obtain ⟨p, -, -, hp, -⟩ := h.partner s hs
    exact (mark_partner h hM hs hp hu (all_onRing h2 hR h1 ⟨s, hu⟩)).2.1
  · obtain ⟨u, w, hu⟩ := h.around s hs
    exact (mark_partner h hM hs hp hu (all_onRing h2 hR h1 ⟨s, hu⟩)).1

theorem colourSphere_fan {F : FanEnv} {ns cap capS : Nat} {G : Graph} (hP : PairedSeeds F) (hcap : F.attr.length ≤ cap) {i : Nat} (hi : i < ns)
    (hG : GraphOk capS G fun i s => ∃ u v, Spokes F i s u v) (hGr : G.rows ≠ none) (hiS : i < capS) (h2 : ∀ w, TwoTriangles F i w) (h1 : OneFan F i)
    (c : Nat → Nat) (hc : ∀ x, c x = 0) {g : Graph} {R : Nat → Nat → Prop} (hg : GraphOk cap g R) :
    ∃ c' g', colourSphere F ns cap G i c g = some (c', g') ∧ (∀ x, c' x = 0) ∧
      GraphOk cap g' fun s t => R s t ∨ ((∃ u v, Spokes F i s u v) ∧ s ≠ t ∧ SameSide F i s t) := by
  have hturn : ∀ {s t : Nat}, (∃ u v, Spokes F i s u v) → SameSide F i s t → ∃ u v, Spokes F i t u v := by
    intro s t hs hst
    induction hst with
    | refl => exact hs
    | tail _ h _ => obtain ⟨u, w, v, p, q, -, -, h, -⟩ := h; exact ⟨w, v, h⟩
  unfold colourSphere
  rcases neighbors_ok hG hGr hiS with ⟨e, hno⟩ | ⟨l, e, hl, hn, hmem⟩
  · rw [e]
    exact ⟨c, g, rfl, hc, hg.congr fun a b => ⟨Or.inl, fun x => x.elim id fun y => absurd y.1 (hno a)⟩⟩
  · rw [e]
    have hPA := hP.pairsAround hn hmem
    obtain ⟨c', e1, -, -, hs, ho⟩ := C84_fan_marks F i l hPA hl h2 h1 c
    have hlt : ∀ s ∈ l, s < F.attr.length := fun s hs => by
      obtain ⟨u, v, a, ea, -⟩ := (hmem s).1 hs
      exact (List.getElem?_eq_some_iff.1 ea).1
    obtain ⟨g', e2, hg', -⟩ := joinEqual_spec c' hcap l g R hg hlt hn
    refine ⟨fun x => if x ∈ l then 0 else c' x, g', ?_, ?_, hg'.congr fun a b => ?_⟩
    · simp only [if_pos hi, e1, e2, clearMarks_spec l c' hlt]
    · intro x
      by_cases hx : x ∈ l
      · simp only [if_pos hx]
      · simp only [if_neg hx]; rw [ho x hx, hc]
    · constructor
      · rintro (h | ⟨x, y, z, w⟩)
        · exact Or.inl h
        · exact Or.inr ⟨(hmem a).1 x, z, (hs a x b y).1 w⟩
      · rintro (h | ⟨x, y, z⟩)
        · exact Or.inl h
        · exact Or.inr ⟨(hmem a).2 x, (hmem b).2 (hturn x z), y, (hs a ((hmem a).2 x) b ((hmem b).2 (hturn x z))).2 z⟩

theorem colourSpheres_fans {F : FanEnv} {ns cap capS : Nat} {G : Graph} (hP : PairedSeeds F) (hcap : F.attr.length ≤ cap)
    (hG : GraphOk capS G fun i s => ∃ u v, Spokes F i s u v) (hGr : G.rows ≠ none) (hS : ns ≤ capS) (h2 : ∀ i, i < ns → ∀ w, TwoTriangles F i w) (h1 : ∀ i, i < ns → OneFan F i)
    (k : Nat) : ∀ m, m ≤ ns → ∃ c g, colourSpheres F ns cap G m (fun _ => 0) { rows := none, cap := k } = some (c, g) ∧ (∀ x, c x = 0) ∧
      GraphOk cap g fun s t => ∃ i, i < m ∧ (∃ u v, Spokes F i s u v) ∧ s ≠ t ∧ SameSide F i s t
  | 0, _ => ⟨fun _ => 0, _, rfl, fun _ => rfl, (emptyGraph_ok cap k).congr fun a b => by simp⟩
  | m + 1, hm => by
    obtain ⟨c, g, e, hc, hg⟩ := colourSpheres_fans hP hcap hG hGr hS h2 h1 k m (by omega)
    obtain ⟨c', g', e', hc', hg'⟩ := colourSphere_fan hP hcap (by omega : m < ns) hG hGr (by omega) (h2 m (by omega)) (h1 m (by omega)) c hc hg
    refine ⟨c', g', by unfold colourSpheres; rw [e]; exact e', hc', hg'.congr fun a b => ?_⟩
    constructor
    · rintro (⟨i, hi, x⟩ | x)
      · exact ⟨i, by omega, x⟩
      · exact ⟨m, by omega, x⟩
    · rintro ⟨i, hi, x⟩
      by_cases him : i = m
      · subst him; exact Or.inr x
      · exact Or.inl ⟨i, by omega, x⟩

theorem TurnStep.symm {F : FanEnv} {i s t : Nat} (hP : PairedSeeds F) (h : TurnStep F i s t) : TurnStep F i t s := by
  obtain ⟨u, w, v, p, q, huv, h1, h2, h3, h4, h5⟩ := h
  refine ⟨v, w, u, q, p, huv.symm, h2.symm, h1.symm, h4, h3, ?_⟩
  have k : ∀ {s p u w}, Spokes F i s u w → Partner F s p → (PairBelow F i w u s p ↔ ¬ PairBelow F i u w s p) := by
    rintro s p u w ⟨a, e, hp⟩ ⟨b, e', rfl⟩
    rw [e] at e'; cases e'
    exact below_swap (hP.sides s a e i u w hp).2
  rw [k h1 h3, k h2 h4]
  tauto

theorem SameSide.symm {F : FanEnv} {i s t : Nat} (hP : PairedSeeds F) (h : SameSide F i s t) : SameSide F i t s := by
  induction h with
  | refl => exact .refl
  | tail _ h ih => exact .head (h.symm hP) ih

theorem SameSide.around {F : FanEnv} {i s t : Nat} (h : SameSide F i s t) (hs : ∃ u v, Spokes F i s u v) : ∃ u v, Spokes F i t u v := by
  induction h with
  | refl => exact hs
  | tail _ h _ => obtain ⟨u, w, v, p, q, -, -, h, -⟩ := h; exact ⟨w, v, h⟩

/-- A chain of seeds, each on the same side of the surface as the one before around some surface sphere. -/
def AlongSurface (F : FanEnv) (ns : Nat) : Nat → Nat → Prop := Relation.ReflTransGen fun s t => ∃ i, i < ns ∧ TurnStep F i s t

/-- **C84.** On a model without sharp features, all spheres being surface spheres surrounded by one closed fan of triangles each: the marks and connections are
computed without undefined behaviour, the connected seeds are exactly those on the same side around a sphere, and the colouring puts two seeds into the same region exactly if a chain of
neighbouring triangles leads from one to the other along one side of the surface; the exterior seed gets region 0. -/
theorem C84_regions (F : FanEnv) (ns capS cap k k' : Nat) (hP : PairedSeeds F) (hne : F.attr ≠ []) (hS : ns ≤ capS) (hcap : F.attr.length ≤ cap)
    (hns : ∀ a ∈ F.attr, a.s1 < ns ∧ a.s2 < ns ∧ a.s3 < ns) (h2 : ∀ i, i < ns → ∀ w, TwoTriangles F i w) (h1 : ∀ i, i < ns → OneFan F i) (e : Nat) (he : e < F.attr.length) :
    ∃ G c g reg nr, linkSpheres ns capS F.attr 0 { rows := none, cap := k } = some G ∧
      colourSpheres F ns cap G ns (fun _ => 0) { rows := none, cap := k' } = some (c, g) ∧
      (∀ s t, t ∈ storedNeighbors g s ↔ s ≠ t ∧ ∃ i, i < ns ∧ (∃ u v, Spokes F i s u v) ∧ SameSide F i s t) ∧
      colourSeeds g F.attr.length e = some (reg, nr) ∧ reg e = 0 ∧
      ∀ s t, s < F.attr.length → t < F.attr.length → (reg s = reg t ↔ AlongSurface F ns s t) := by
  obtain ⟨G, eG, hG, hGr⟩ := linkSpheres_spec hS F.attr 0 _ _ (emptyGraph_ok capS k) hns
  have hG' : GraphOk capS G fun i s => ∃ u v, Spokes F i s u v := hG.congr fun i s => by
    rw [spokes_iff_mem]
    constructor
    · rintro (h | ⟨m, a, x, y, z⟩)
      · exact h.elim
      · exact ⟨a, by rw [y, Nat.zero_add]; exact x, z⟩
    · rintro ⟨a, x, z⟩
      exact Or.inr ⟨s, a, x, by omega, z⟩
  obtain ⟨c, g, ec, -, hg⟩ := colourSpheres_fans hP hcap hG' (hGr (Or.inr hne)) hS h2 h1 k' ns le_rfl
  have hrel : ∀ s t, t ∈ storedNeighbors g s ↔ s ≠ t ∧ ∃ i, i < ns ∧ (∃ u v, Spokes F i s u v) ∧ SameSide F i s t := fun s t => by
    rw [hg.inv.rel]
    constructor
    · rintro ⟨i, x, y, z, w⟩; exact ⟨z, i, x, y, w⟩
    · rintro ⟨z, i, x, y, w⟩; exact ⟨i, x, y, z, w⟩
  -- there is a connection
  have hstep : ∀ s, s < F.attr.length → ∃ i t, i < ns ∧ s ≠ t ∧ TurnStep F i s t := by
    intro s hs
    have ea : F.attr[s]? = some F.attr[s] := List.getElem?_eq_getElem hs
    set a := F.attr[s] with haa
    have hi := (hns a (List.mem_of_getElem? ea)).1
    have hsp : Spokes F a.s1 s a.s2 a.s3 := ⟨a, ea, .refl _⟩
    obtain ⟨v, hv, ⟨t, ht⟩, -⟩ := h2 a.s1 hi a.s3 a.s2 ⟨s, hsp⟩
    obtain ⟨b, eb, hb⟩ := ht
    obtain ⟨h3, b', eb', h4, h5⟩ := hP.partner t b eb
    have htp : Partner F t b.pair := ⟨b, eb, rfl⟩
    have hpt : Partner F b.pair t := ⟨b', eb', h4⟩
    have ht' : Spokes F a.s1 b.pair a.s3 v := ⟨b', eb', h5.trans hb⟩
    have hB := below_partner (hP.sides t b eb a.s1 a.s3 v hb).2
    have hsn : ∀ {t}, Spokes F a.s1 t a.s3 v → s ≠ t := by
      rintro t ht rfl
      rcases hsp.det ht with ⟨x, y⟩ | ⟨x, y⟩
      · have := hP.distinct a (List.mem_of_getElem? ea); simp at this
        exact this.2 x.symm
      · exact hv y
    by_cases hc : (PairBelow F a.s1 a.s2 a.s3 s a.pair ↔ PairBelow F a.s1 a.s3 v t b.pair)
    · exact ⟨a.s1, t, hi, hsn ⟨b, eb, hb⟩, a.s2, a.s3, v, a.pair, b.pair, hv.symm, hsp, ⟨b, eb, hb⟩, ⟨a, ea, rfl⟩, htp, hc⟩
    · exact ⟨a.s1, b.pair, hi, hsn ht', a.s2, a.s3, v, a.pair, t, hv.symm, hsp, ht', ⟨a, ea, rfl⟩, hpt, by rw [hB]; tauto⟩
  have hSG : SeedGraph g F.attr.length := by
    have hrows : g.rows ≠ none := by
      intro hno
      obtain ⟨i, t, hi, hst, ht⟩ := hstep e he
      obtain ⟨u, w, v, p, q, -, hsp, -⟩ := id ht
      have := (hrel e t).2 ⟨hst, i, hi, ⟨u, w, hsp⟩, .single ht⟩
      simp [storedNeighbors, graphNeighbors, hno] at this
    refine ⟨fun s hs hno => ?_, fun s t _ ht => ?_, fun s t _ ht => ?_⟩
    · rcases neighbors_ok hg hrows (i := s) (by omega) with ⟨x, -⟩ | ⟨l, x, -⟩ <;> rw [hno] at x <;> cases x
    · obtain ⟨-, i, -, hs, hst⟩ := (hrel s t).1 ht
      obtain ⟨u, v, a, ea, -⟩ := hst.around hs
      exact (List.getElem?_eq_some_iff.1 ea).1
    · obtain ⟨h0, i, hi, hs, hst⟩ := (hrel s t).1 ht
      exact (hrel t s).2 ⟨h0.symm, i, hi, hst.around hs, hst.symm hP⟩
  obtain ⟨reg, nr, er, hr, hr0, -, -⟩ := C40_regions_are_components g F.attr.length hSG e he
  refine ⟨G, c, g, reg, nr, eG, ec, hrel, er, hr0, fun s t hs ht => ?_⟩
  rw [hr s t hs ht]
  constructor
  · intro hj
    clear ht
    induction hj with
    | refl => exact .refl
    | tail _ hab ih =>
      obtain ⟨-, i, hi, -, hst⟩ := (hrel _ _).1 hab
      refine Relation.ReflTransGen.trans ih ?_
      clear hab ih
      induction hst with
      | refl => exact .refl
      | tail _ h ih => exact ih.tail ⟨i, hi, h⟩
  · intro hj
    clear ht
    induction hj with
    | refl => exact .refl
    | @tail x y _ h ih =>
      obtain ⟨i, hi, h⟩ := h
      by_cases hxy : x = y
      · rw [← hxy]; exact ih
      · obtain ⟨u, w, v, p, q, -, hsp, -⟩ := id h
        exact ih.tail ((hrel x y).2 ⟨hxy, i, hi, ⟨u, w, hsp⟩, .single h⟩)

/-- **C84, separation.** If the seeds can be told apart as inside and outside such that neighbouring triangles agree, then no region contains seeds of both kinds. -/
theorem C84_separated (F : FanEnv) (ns : Nat) (inside : Nat → Prop) (hagree : ∀ i s t, i < ns → TurnStep F i s t → (inside s ↔ inside t)) {s t : Nat} (h : AlongSurface F ns s t) :
    inside s ↔ inside t := by
  induction h with
  | refl => exact Iff.rfl
  | tail _ h ih =>
    obtain ⟨i, hi, h⟩ := h
    exact ih.trans (hagree i _ _ hi h)

/-! ## Pinched spheres -/

theorem markFan_pinch {F : FanEnv} {i : Nat} {l : List Nat} (h : PairsAround F i l) (hl : l ≠ []) (h2 : ∀ w, TwoTriangles F i w) (c : Nat → Nat) :
    ∃ c', markFan F i l (l.length + 1) c = some (some c') ∧ (∀ x, x ∉ l → c' x = c x) ∧
      (¬ OneFan F i → ∃ s ∈ l, ∃ p ∈ l, s ≠ p ∧ Partner F s p ∧ c' s = c' p) := by
  obtain ⟨s0, l, rfl⟩ : ∃ s0 l', l = s0 :: l' := by
    cases l with
    | nil => exact absurd rfl hl
    | cons s l => exact ⟨s, l, rfl⟩
  obtain ⟨u0, t, c', e, hR, hM, ho, -⟩ := markFan_spec h h2 c
  refine ⟨c', e, ho, fun hno => ?_⟩
  by_contra hcon
  push Not at hcon
  -- then every triangle is on the ring, and the ring is connected
  have hall : ∀ a b, FanLinked F i a b → OnRing u0 t a b := by
    rintro a b ⟨s, hs⟩
    have hsl := h.all _ _ _ hs
    by_contra hoff
    obtain ⟨p, hp, hne, hsp, -, hsame⟩ := h.partner s hsl
    have hz : ∀ q ∈ s0 :: l, Spokes F i q a b → c' q = 0 := by
      intro q hq hqs
      refine (hM.zero q hq).2 fun e he hx => hoff ?_
      obtain ⟨-, -, e3⟩ := trailEdges_mem _ _ he
      obtain ⟨x, y, m, n⟩ := e
      simp only [Prod.mk.injEq] at e3
      obtain ⟨rfl, rfl⟩ := e3
      rcases hqs.det hx with ⟨x1, x2⟩ | ⟨x1, x2⟩
      · simp only at x1 x2; subst x1 x2; exact Or.inl he
      · simp only at x1 x2; subst x1 x2; exact Or.inr he
    exact hcon s hsl p hp hne.symm hsp ((hz s hsl hs).trans (hz p hp (hsame _ _ hs)).symm)
  have hpath : ∀ (r : List Nat) (w : Nat), (∀ e ∈ trailEdges 1 2 (w :: r), FanLinked F i e.1 e.2.1) → ∀ x ∈ w :: r, Relation.ReflTransGen (FanLinked F i) w x := by
    intro r
    induction r with
    | nil => intro w _ x hx; simp at hx; subst hx; exact .refl
    | cons y r ih =>
      intro w hL x hx
      rcases List.mem_cons.1 hx with rfl | hx
      · exact .refl
      · exact .head (hL (y, w, 1, 2) (by simp [trailEdges])).symm (ih y (fun e he => hL e (List.mem_cons_of_mem _ he)) x hx)
  have hin : ∀ a, (∃ x, FanLinked F i a x) → a ∈ u0 :: t := by
    rintro a ⟨x, hx⟩
    rcases hall a x hx with h | h
    · exact List.mem_of_mem_tail (trailEdges_mem _ _ h).1
    · exact (trailEdges_mem _ _ h).2.1
  apply hno
  intro u v hu hv
  have hsym : ∀ {a b}, Relation.ReflTransGen (FanLinked F i) a b → Relation.ReflTransGen (FanLinked F i) b a := by
    intro a b hab
    induction hab with
    | refl => exact .refl
    | tail _ h ih => exact .head h.symm ih
  exact (hsym (hpath t u0 hR.linked u (hin u hu))).trans (hpath t u0 hR.linked v (hin v hv))

theorem colourSpheres_pinch {F : FanEnv} {ns cap capS : Nat} {G : Graph} (hP : PairedSeeds F) (hcap : F.attr.length ≤ cap)
    (hG : GraphOk capS G fun i s => ∃ u v, Spokes F i s u v) (hGr : G.rows ≠ none) (hS : ns ≤ capS) (h2 : ∀ i, i < ns → ∀ w, TwoTriangles F i w)
    (k : Nat) : ∀ m, m ≤ ns → ∃ c g R, colourSpheres F ns cap G m (fun _ => 0) { rows := none, cap := k } = some (c, g) ∧ GraphOk cap g R ∧
      (∀ s t, R s t → R t s ∧ s < F.attr.length ∧ t < F.attr.length) ∧ ∀ i, i < m → ¬ OneFan F i → ∃ s p, Partner F s p ∧ R s p
  | 0, _ => ⟨fun _ => 0, _, _, rfl, emptyGraph_ok cap k, fun _ _ h => h.elim, fun i hi => by omega⟩
  | m + 1, hm => by
    obtain ⟨c, g, R, e, hg, hR, hpin⟩ := colourSpheres_pinch hP hcap hG hGr hS h2 k m (by omega)
    rcases neighbors_ok hG hGr (i := m) (by omega) with ⟨en, hno⟩ | ⟨l, en, hl, hn, hmem⟩
    · refine ⟨c, g, R, ?_, hg, hR, fun i hi hfan => ?_⟩
      · unfold colourSpheres; rw [e]; simp only [colourSphere, en]
      · by_cases him : i = m
        · subst him
          exfalso
          apply hfan
          rintro u v ⟨x, s, hs⟩
          exact absurd ⟨u, x, hs⟩ (hno s)
        · exact hpin i (by omega) hfan
    · have hPA := hP.pairsAround hn hmem
      obtain ⟨c', e1, -, hpinch⟩ := markFan_pinch hPA hl (h2 m (by omega)) c
      have hlt : ∀ s ∈ l, s < F.attr.length := fun s hs => by
        obtain ⟨u, v, a, ea, -⟩ := (hmem s).1 hs
        exact (List.getElem?_eq_some_iff.1 ea).1
      obtain ⟨g', e2, hg', -⟩ := joinEqual_spec c' hcap l g R hg hlt hn
      refine ⟨fun x => if x ∈ l then 0 else c' x, g', _, ?_, hg', ?_, fun i hi hfan => ?_⟩
      · unfold colourSpheres
        rw [e]
        simp only [colourSphere, en, if_pos (show m < ns by omega), e1, e2, clearMarks_spec l c' hlt]
      · rintro s t (h | ⟨x, y, z, w⟩)
        · obtain ⟨q1, q2, q3⟩ := hR s t h
          exact ⟨Or.inl q1, q2, q3⟩
        · exact ⟨Or.inr ⟨y, x, z.symm, w.symm⟩, hlt s x, hlt t y⟩
      · by_cases him : i = m
        · subst him
          obtain ⟨s, hs, p, hp, hne, hsp, hc⟩ := hpinch hfan
          exact ⟨s, p, hsp, Or.inr ⟨hs, hp, hne, hc⟩⟩
        · obtain ⟨s, p, hsp, hR'⟩ := hpin i (by omega) hfan
          exact ⟨s, p, hsp, Or.inl hR'⟩

/-- **C84, pinched spheres.** The condition of one fan for each sphere cannot be dropped: on every closed surface with a sphere whose triangles form more than one fan, the program
connects the two seeds of a pair, which lie on different sides of the surface, and puts them into the same region. -/
theorem C84_pinch_false (F : FanEnv) (ns capS cap k k' : Nat) (hP : PairedSeeds F) (hne : F.attr ≠ []) (hS : ns ≤ capS) (hcap : F.attr.length ≤ cap)
    (hns : ∀ a ∈ F.attr, a.s1 < ns ∧ a.s2 < ns ∧ a.s3 < ns) (h2 : ∀ i, i < ns → ∀ w, TwoTriangles F i w) (i : Nat) (hi : i < ns) (hfan : ¬ OneFan F i)
    (e : Nat) (he : e < F.attr.length) :
    ∃ G c g reg nr s p, linkSpheres ns capS F.attr 0 { rows := none, cap := k } = some G ∧
      colourSpheres F ns cap G ns (fun _ => 0) { rows := none, cap := k' } = some (c, g) ∧ colourSeeds g F.attr.length e = some (reg, nr) ∧
      Partner F s p ∧ p ∈ storedNeighbors g s ∧ reg s = reg p := by
  obtain ⟨G, eG, hG, hGr⟩ := linkSpheres_spec hS F.attr 0 _ _ (emptyGraph_ok capS k) hns
  have hG' : GraphOk capS G fun i s => ∃ u v, Spokes F i s u v := hG.congr fun i s => by
    rw [spokes_iff_mem]
    constructor
    · rintro (h | ⟨m, a, x, y, z⟩)
      · exact h.elim
      · exact ⟨a, by rw [y, Nat.zero_add]; exact x, z⟩
    · rintro ⟨a, x, z⟩
      exact Or.inr ⟨s, a, x, by omega, z⟩
  obtain ⟨c, g, R, ec, hg, hR, hpin⟩ := colourSpheres_pinch hP hcap hG' (hGr (Or.inr hne)) hS h2 k' ns le_rfl
  obtain ⟨s, p, hsp, hRsp⟩ := hpin i hi hfan
  have hmem := (hg.inv.rel s p).2 hRsp
  have hrows : g.rows ≠ none := by
    intro hno
    simp [storedNeighbors, graphNeighbors, hno] at hmem
  have hSG : SeedGraph g F.attr.length := by
    refine ⟨fun s hs hno => ?_, fun s t _ ht => ?_, fun s t _ ht => ?_⟩
    · rcases neighbors_ok hg hrows (i := s) (by omega) with ⟨x, -⟩ | ⟨l, x, -⟩ <;> rw [hno] at x <;> cases x
    · exact (hR s t ((hg.inv.rel s t).1 ht)).2.2
    · exact (hg.inv.rel t s).2 (hR s t ((hg.inv.rel s t).1 ht)).1
  obtain ⟨reg, nr, er, hr, -⟩ := C40_regions_are_components g F.attr.length hSG e he
  obtain ⟨-, hs1, hs2⟩ := hR s p hRsp
  exact ⟨G, c, g, reg, nr, s, p, eG, ec, er, hsp, hmem, (hr s p hs1 hs2).2 (.single hmem)⟩

end VoroCrust
