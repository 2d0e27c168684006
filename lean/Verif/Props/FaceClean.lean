import Verif.Model.FaceClean
import Verif.Model.Geometry
import Mathlib.Data.List.Perm.Basic
import Mathlib.Data.List.Nodup
import Mathlib.Data.Finset.Card
import Mathlib.Data.Fintype.Card
import Mathlib.Tactic.NormNum
import Mathlib.Tactic.SplitIfs

/-! # The removal of degenerate faces (C60) -/

namespace VoroCrust

variable {F : Type}

/-- The faces `i, …, i + R.length - 1`, the last ones, are those of the list, each at its own address. -/
structure FacesFrom (S : FaceMem F) (i : Nat) (R : List F) : Prop where
  num : S.num = i + R.length
  get : ∀ k x, R[k]? = some x → S.heap (S.faces (i + k)) = some x
  inj : ∀ a b, a < S.num → b < S.num → S.faces a = S.faces b → a = b

/-- What the loop leaves of a list `R` of faces from index `i` on: those not degenerate with their normal, or these and one more without. -/
inductive Cleaned (deg : F → Bool) (S : FaceMem F) (i : Nat) (R : List F) : Prop
  | all (kept : List F) (h : FacesFrom S i kept) (perm : kept.Perm (R.filter fun x => !deg x)) (normal : ∀ k x, kept[k]? = some x → S.normal (i + k) = some x)
  | skipped (kept : List F) (y : F) (h : FacesFrom S i (kept ++ [y])) (perm : ((kept ++ [y]).filter fun x => !deg x).Perm (R.filter fun x => !deg x)) (good : ∀ x ∈ kept, deg x = false)
      (normal : ∀ k x, kept[k]? = some x → S.normal (i + k) = some x) (none : S.normal (i + kept.length) = none) (removed : ∃ d, deg d = true ∧ (d :: (kept ++ [y])).Subperm R)

theorem FacesFrom.tail {S : FaceMem F} {i : Nat} {x : F} {R : List F} (h : FacesFrom S i (x :: R)) (n : Nat → Option F) : FacesFrom { S with normal := n } (i + 1) R := by
  refine ⟨by have := h.num; simp only [List.length_cons] at this; simp only; omega, fun k y hk => ?_, h.inj⟩
  have := h.get (k + 1) y (by simpa using hk)
  rw [show i + (k + 1) = i + 1 + k by omega] at this
  exact this

/-- Replacing the first by the last. -/
theorem FacesFrom.swap {S : FaceMem F} {i : Nat} {x y : F} {R : List F} (h : FacesFrom S i (x :: (R ++ [y]))) (n : Nat → Option F) :
    FacesFrom ⟨S.num - 1, upd S.faces i (S.faces (S.num - 1)), upd S.heap (S.faces i) none, n⟩ i (y :: R) := by
  have hnum : S.num = i + R.length + 2 := by have := h.num; simp at this; omega
  have hne : ∀ k, k < S.num → k ≠ i → S.faces k ≠ S.faces i := fun k hk hki e => hki (h.inj k i hk (by omega) e)
  refine ⟨by simp only [List.length_cons]; omega, fun k z hk => ?_, fun a b ha hb e => ?_⟩
  · cases k with
    | zero =>
      simp only [List.getElem?_cons_zero] at hk
      obtain rfl := Option.some.inj hk
      simp only [Nat.add_zero, upd]
      rw [if_pos trivial, if_neg (hne _ (by omega) (by omega))]
      have := h.get (R.length + 1) y (by simp)
      rw [show S.num - 1 = i + (R.length + 1) by omega]
      exact this
    | succ k =>
      simp only [List.getElem?_cons_succ] at hk
      have hk' : k < R.length := (List.getElem?_eq_some_iff.1 hk).1
      have hf : upd S.faces i (S.faces (S.num - 1)) (i + (k + 1)) = S.faces (i + (k + 1)) := by simp only [upd]; rw [if_neg (by omega)]
      simp only
      rw [hf]
      simp only [upd]
      rw [if_neg (hne _ (by omega) (by omega))]
      exact h.get (k + 1) z (by rw [List.getElem?_cons_succ, List.getElem?_append_left hk']; exact hk)
  · simp only [upd] at e ha hb
    split_ifs at e with h1 h2 h2
    · omega
    · have := h.inj _ _ (by omega) (by omega) e
      omega
    · have := h.inj _ _ (by omega) (by omega) e
      omega
    · exact h.inj _ _ (by omega) (by omega) e

theorem FacesFrom.last {S : FaceMem F} {i : Nat} {x : F} (h : FacesFrom S i [x]) (n : Nat → Option F) : FacesFrom ⟨S.num - 1, upd S.faces i (S.faces (S.num - 1)), upd S.heap (S.faces i) none, n⟩ i [] := by
  have hnum : S.num = i + 1 := by have := h.num; simpa using this
  refine ⟨by simp only [List.length_nil]; omega, by simp, fun a b ha hb e => ?_⟩
  simp only [upd] at e ha hb
  rw [if_neg (by omega), if_neg (by omega)] at e
  exact h.inj _ _ (by omega) (by omega) e

/-- What is before index `i` or at or after the end is as before. -/
structure CleanKeeps (S S' : FaceMem F) (i : Nat) : Prop where
  faces : ∀ k, k < i ∨ S.num ≤ k → S'.faces k = S.faces k
  heap : ∀ k, k < i → S'.heap (S.faces k) = S.heap (S.faces k)
  normal : ∀ k, k < i → S'.normal k = S.normal k

theorem Cleaned.cons {deg : F → Bool} {S' : FaceMem F} {i : Nat} {x : F} {R : List F} (hx : deg x = false) (h : Cleaned deg S' (i + 1) R) (hf : S'.heap (S'.faces i) = some x) (hn : S'.normal i = some x) :
    Cleaned deg S' i (x :: R) := by
  have hget : ∀ (l : List F), FacesFrom S' (i + 1) l → FacesFrom S' i (x :: l) := by
    intro l hl
    refine ⟨by rw [hl.num]; simp; omega, fun k z hk => ?_, hl.inj⟩
    cases k with
    | zero => simp only [List.getElem?_cons_zero] at hk; rw [Nat.add_zero, hf, hk]
    | succ k => rw [show i + (k + 1) = i + 1 + k by omega]; exact hl.get k z (by simpa using hk)
  have hnorm : ∀ (l : List F), (∀ k z, l[k]? = some z → S'.normal (i + 1 + k) = some z) → ∀ k z, (x :: l)[k]? = some z → S'.normal (i + k) = some z := by
    intro l hl k z hk
    cases k with
    | zero => simp only [List.getElem?_cons_zero] at hk; rw [Nat.add_zero, hn, hk]
    | succ k => rw [show i + (k + 1) = i + 1 + k by omega]; exact hl k z (by simpa using hk)
  cases h with
  | all kept h1 h2 h3 => exact .all (x :: kept) (hget _ h1) (by rw [List.filter_cons_of_pos (by simp [hx])]; exact h2.cons x) (hnorm _ h3)
  | skipped kept y h1 h2 h3 h4 h5 h7 =>
    refine .skipped (x :: kept) y (hget _ h1) ?_ ?_ (hnorm _ h4) ?_ ?_
    · rw [List.cons_append, List.filter_cons_of_pos (by simp [hx]), List.filter_cons_of_pos (by simp [hx])]
      exact h2.cons x
    · intro z hz
      rcases List.mem_cons.1 hz with rfl | hz
      · exact hx
      · exact h3 z hz
    · rw [List.length_cons, show i + (kept.length + 1) = i + 1 + kept.length by omega]; exact h5
    · obtain ⟨d, h8, h9⟩ := h7; exact ⟨d, h8, (List.Perm.swap x d (kept ++ [y])).subperm.trans ((List.subperm_cons x).2 h9)⟩

theorem Cleaned.of_perm {deg : F → Bool} {S : FaceMem F} {i : Nat} {R R' : List F} (h : Cleaned deg S i R) (hp : (R.filter fun x => !deg x).Perm (R'.filter fun x => !deg x)) (hsub : R.Subperm R') : Cleaned deg S i R' := by
  cases h with
  | all kept h1 h2 h3 => exact .all kept h1 (h2.trans hp) h3
  | skipped kept y h1 h2 h3 h4 h5 h7 => exact .skipped kept y h1 (h2.trans hp) h3 h4 h5 (by obtain ⟨d, h8, h9⟩ := h7; exact ⟨d, h8, h9.trans hsub⟩)

theorem cleanLoop_spec (deg : F → Bool) (f : Nat) : ∀ (i : Nat) (rep : Bool) (S : FaceMem F) (R : List F), FacesFrom S i R → R.length < f → (rep = true → S.normal i = none) →
    ∃ S', cleanLoop deg f (if rep then i + 1 else i) rep S = some (some S') ∧ CleanKeeps S S' i ∧ S'.num ≤ S.num ∧ (S'.num < S.num → ∃ d ∈ R, deg d = true) ∧
      ((rep = true ∧ ∃ y, R = [y] ∧ S' = S) ∨ Cleaned deg S' i R) := by
  induction f with
  | zero => intro i rep S R _ h; omega
  | succ f ih =>
    intro i rep S R h hf hrep
    have hi : (if rep then (if rep then i + 1 else i) - 1 else if rep then i + 1 else i) = i := by cases rep <;> simp
    unfold cleanLoop
    rw [hi]
    by_cases hlt : (if rep then i + 1 else i) < S.num
    · rw [if_pos hlt]
      cases R with
      | nil => have := h.num; simp only [List.length_nil] at this; cases rep <;> simp at hlt <;> omega
      | cons x R =>
        have hx : S.heap (S.faces i) = some x := h.get 0 x rfl
        have hnum := h.num
        rw [List.length_cons] at hnum hf
        unfold cleanStep
        rw [hx]
        simp only
        by_cases hd : deg x = true
        · rw [if_pos hd]
          simp only
          rcases List.eq_nil_or_concat R with rfl | ⟨R', y, rfl⟩
          · -- the last face
            have h' := h.last (upd S.normal i none)
            obtain ⟨S', e, hk, hle, hlt', hc⟩ := ih i true _ [] h' (by simp at hf ⊢; omega) (fun _ => by simp [upd])
            rw [if_pos rfl] at e
            refine ⟨S', e, ⟨fun k hk' => ?_, fun k hk' => ?_, fun k hk' => ?_⟩, le_trans hle (by simp), fun _ => ⟨x, List.mem_cons_self, hd⟩, Or.inr ?_⟩
            · rw [hk.faces k (by simp only; omega)]
              simp only [upd]
              split_ifs with g
              · subst g
                rcases hk' with g | g
                · omega
                · omega
              · rfl
            · have h0 := hk.heap k hk'
              have hf : upd S.faces i (S.faces (S.num - 1)) k = S.faces k := by simp only [upd]; rw [if_neg (by omega)]
              simp only at h0
              rw [hf] at h0
              simp only [upd] at h0
              rw [if_neg (fun e => by have := h.inj k i (by omega) (by omega) e; omega)] at h0
              exact h0
            · rw [hk.normal k hk']
              simp only [upd]
              rw [if_neg (by omega)]
            · rcases hc with ⟨-, y, e', -⟩ | hc
              · cases e'
              · exact hc.of_perm (by rw [List.filter_cons_of_neg (by simp [hd])]) (List.nil_subperm)
          · rw [List.concat_eq_append] at h hf hnum ⊢
            have h' := h.swap (upd S.normal i none)
            rw [List.length_append, List.length_singleton] at hf hnum
            obtain ⟨S', e, hk, hle, hlt', hc⟩ := ih i true _ (y :: R') h' (by rw [List.length_cons]; omega) (fun _ => by simp [upd])
            rw [if_pos rfl] at e
            refine ⟨S', e, ⟨fun k hk' => ?_, fun k hk' => ?_, fun k hk' => ?_⟩, le_trans hle (by simp), fun _ => ⟨x, List.mem_cons_self, hd⟩, Or.inr ?_⟩
            · rw [hk.faces k (by simp only; omega)]
              simp only [upd]
              rw [if_neg (by omega)]
            · have h0 := hk.heap k hk'
              have hf : upd S.faces i (S.faces (S.num - 1)) k = S.faces k := by simp only [upd]; rw [if_neg (by omega)]
              simp only at h0
              rw [hf] at h0
              simp only [upd] at h0
              rw [if_neg (fun e => by have := h.inj k i (by omega) (by omega) e; omega)] at h0
              exact h0
            · rw [hk.normal k hk']
              simp only [upd]
              rw [if_neg (by omega)]
            · have hperm : ((y :: R').filter fun z => !deg z).Perm ((x :: (R' ++ [y])).filter fun z => !deg z) := by
                rw [List.filter_cons_of_neg (a := x) (by simp [hd])]
                exact (List.perm_append_comm (l₁ := [y]) (l₂ := R')).filter _
              rcases hc with ⟨-, z, e', rfl⟩ | hc
              · obtain ⟨rfl, rfl⟩ := List.cons.inj e'
                refine .skipped [] y h' hperm (by simp) (by simp) (by simp [upd]) ⟨x, hd, List.Subperm.refl _⟩
              · exact hc.of_perm hperm ((List.perm_append_comm (l₁ := [y]) (l₂ := R')).subperm.trans (List.sublist_cons_self _ _).subperm)
        · rw [if_neg hd]
          simp only
          have hd' : deg x = false := by simpa using hd
          have h' := h.tail (upd S.normal i (some x))
          obtain ⟨S', e, hk, hle, hlt', hc⟩ := ih (i + 1) false _ R h' (by omega) (by simp)
          rw [if_neg (by simp)] at e
          refine ⟨S', e, ⟨fun k hk' => hk.faces k (by simp only; omega), fun k hk' => hk.heap k (by omega), fun k hk' => ?_⟩, hle, fun h0 => ?_, Or.inr ?_⟩
          · rw [hk.normal k (by omega)]
            simp only [upd]
            rw [if_neg (by omega)]
          · obtain ⟨d, h1, h2⟩ := hlt' h0
            exact ⟨d, List.mem_cons_of_mem _ h1, h2⟩
          · rcases hc with ⟨hc, -⟩ | hc
            · exact absurd hc (by simp)
            · refine Cleaned.cons hd' hc ?_ ?_
              · rw [hk.faces i (by simp)]
                have := hk.heap i (by omega)
                simp only at this ⊢
                rw [this, hx]
              · rw [hk.normal i (by omega)]
                simp [upd]
    · rw [if_neg hlt]
      refine ⟨S, rfl, ⟨fun _ _ => rfl, fun _ _ => rfl, fun _ _ => rfl⟩, le_refl _, fun h0 => absurd h0 (lt_irrefl _), ?_⟩
      have hnum := h.num
      cases R with
      | nil => exact Or.inr (.all [] h (by simp) (by simp))
      | cons y R =>
        rw [List.length_cons] at hnum
        cases rep with
        | false => simp at hlt; omega
        | true =>
          simp at hlt
          have : R.length = 0 := by omega
          obtain rfl := List.length_eq_zero_iff.1 this
          exact Or.inl ⟨rfl, y, rfl, rfl⟩

theorem faceMem_from (xs : List F) : FacesFrom (faceMem xs) 0 xs := ⟨by simp [faceMem], fun k x h => by simpa [faceMem] using h, fun a b _ _ e => e⟩

/-! ## Releasing the faces -/

theorem releaseFaces_some {faces : Nat → Nat} {heap : Nat → Option F} (n : Nat) (hinj : ∀ a b, a < n → b < n → faces a = faces b → a = b) (hs : ∀ a, a < n → (heap (faces a)).isSome) :
    ∃ h, releaseFaces faces heap n = some h ∧ ∀ p, (∀ a, a < n → faces a ≠ p) → h p = heap p := by
  induction n with
  | zero => exact ⟨heap, rfl, fun _ _ => rfl⟩
  | succ n ih =>
    obtain ⟨h, e, hh⟩ := ih (fun a b ha hb => hinj a b (by omega) (by omega)) (fun a ha => hs a (by omega))
    have h1 : h (faces n) = heap (faces n) := hh _ fun a ha e => by have := hinj a n (by omega) (by omega) e; omega
    refine ⟨upd h (faces n) none, ?_, fun p hp => ?_⟩
    · unfold releaseFaces
      rw [e]
      simp only
      rw [h1, if_pos (hs n (by omega))]
    · simp only [upd]
      rw [if_neg (fun e => hp n (by omega) e.symm)]
      exact hh p fun a ha => hp a (by omega)

theorem releaseFaces_inv {faces : Nat → Nat} {heap : Nat → Option F} (n : Nat) : ∀ h, releaseFaces faces heap n = some h → (∀ a b, a < n → b < n → faces a = faces b → a = b) ∧ (∀ a, a < n → (heap (faces a)).isSome) ∧
    ∀ p, h p = none ∨ h p = heap p ∧ ∀ a, a < n → faces a ≠ p := by
  induction n with
  | zero => intro h e; obtain rfl := Option.some.inj e; exact ⟨fun a b ha => by omega, fun a ha => by omega, fun p => Or.inr ⟨rfl, fun a ha => by omega⟩⟩
  | succ n ih =>
    intro h e
    unfold releaseFaces at e
    cases e0 : releaseFaces faces heap n with
    | none => rw [e0] at e; cases e
    | some h0 =>
      rw [e0] at e
      simp only at e
      obtain ⟨h1, h2, h3⟩ := ih h0 e0
      split_ifs at e with hs
      obtain rfl := Option.some.inj e
      have hn : h0 (faces n) = heap (faces n) ∧ ∀ a, a < n → faces a ≠ faces n := by
        rcases h3 (faces n) with g | g
        · rw [g] at hs; cases hs
        · exact g
      refine ⟨fun a b ha hb hab => ?_, fun a ha => ?_, fun p => ?_⟩
      · rcases Nat.lt_or_eq_of_le (Nat.lt_succ_iff.1 ha) with ha | rfl <;> rcases Nat.lt_or_eq_of_le (Nat.lt_succ_iff.1 hb) with hb | rfl
        · exact h1 a b ha hb hab
        · exact absurd hab (hn.2 a ha)
        · exact absurd hab.symm (hn.2 b hb)
        · rfl
      · rcases Nat.lt_or_eq_of_le (Nat.lt_succ_iff.1 ha) with ha | rfl
        · exact h2 a ha
        · rw [← hn.1]; exact hs
      · simp only [upd]
        split_ifs with hp
        · exact Or.inl rfl
        · rcases h3 p with g | ⟨g, g'⟩
          · exact Or.inl g
          · refine Or.inr ⟨g, fun a ha => ?_⟩
            rcases Nat.lt_or_eq_of_le (Nat.lt_succ_iff.1 ha) with ha | rfl
            · exact g' a ha
            · exact fun e => hp e.symm

/-- The addresses stay those of the caller, and after a removal one of them is free. -/
structure FaceOwned (n : Nat) (S : FaceMem F) : Prop where
  le : S.num ≤ n
  addr : ∀ k, k < n → S.faces k < n
  free : S.num < n → ∃ a, a < n ∧ S.heap a = none

theorem cleanStep_owned {deg : F → Bool} {n : Nat} {S S' : FaceMem F} {i : Nat} {r : Bool} (h : FaceOwned n S) (hi : i < S.num) (e : cleanStep deg S i = some (S', r)) : FaceOwned n S' := by
  unfold cleanStep at e
  have hle := h.le
  split at e
  · cases e
  · split_ifs at e
    · obtain ⟨rfl, -⟩ := Prod.mk.inj (Option.some.inj e)
      refine ⟨by simp only; omega, fun k hk => ?_, fun _ => ⟨S.faces i, h.addr i (by omega), by simp [upd]⟩⟩
      simp only [upd]
      split_ifs
      · exact h.addr _ (by omega)
      · exact h.addr k hk
    · obtain ⟨rfl, -⟩ := Prod.mk.inj (Option.some.inj e)
      exact ⟨h.le, h.addr, h.free⟩

theorem cleanLoop_owned {deg : F → Bool} {n : Nat} (f : Nat) : ∀ (i : Nat) (r : Bool) (S S' : FaceMem F), FaceOwned n S → cleanLoop deg f i r S = some (some S') → FaceOwned n S' := by
  induction f with
  | zero => intro i r S S' _ e; cases Option.some.inj e
  | succ f ih =>
    intro i r S S' h e
    unfold cleanLoop at e
    by_cases hi : i < S.num
    · rw [if_pos hi] at e
      cases e0 : cleanStep deg S (if r then i - 1 else i) with
      | none => rw [e0] at e; cases e
      | some p =>
        rw [e0] at e
        exact ih _ _ _ _ (cleanStep_owned h (by split_ifs <;> omega) e0) e
    · rw [if_neg hi] at e
      obtain rfl := Option.some.inj (Option.some.inj e)
      exact h

/-! ## C60 -/

/-- **C60** (partial): for every list of faces the loop ends without undefined behaviour.  It keeps all faces that are not degenerate, and either exactly these, each with its normal, or there is a degenerate face, and the last face
kept has no normal, degenerate or not.  Missing: the second case should not be (`C60_skipped_false`). -/
theorem C60_clean_partial (deg : F → Bool) (xs : List F) (f : Nat) (hf : xs.length < f) : ∃ S, cleanLoop deg f 0 false (faceMem xs) = some (some S) ∧ Cleaned deg S 0 xs := by
  obtain ⟨S, e, -, -, -, h⟩ := cleanLoop_spec deg f 0 false (faceMem xs) xs (faceMem_from xs) hf (by simp)
  refine ⟨S, e, ?_⟩
  rcases h with ⟨h, -⟩ | h
  · cases h
  · exact h

/-- **C60**: without a degenerate face all faces are processed and the caller can release them. -/
theorem C60_clean_input (deg : F → Bool) (xs : List F) (hx : ∀ x ∈ xs, deg x = false) (f : Nat) (hf : xs.length < f) :
    ∃ S, cleanLoop deg f 0 false (faceMem xs) = some (some S) ∧ S.num = xs.length ∧ (∃ kept : List F, kept.Perm xs ∧ ∀ (k : Nat) (x : F), kept[k]? = some x → S.heap (S.faces k) = some x ∧ S.normal k = some x) ∧
      (releaseFaces S.faces S.heap xs.length).isSome := by
  obtain ⟨S, e, -, hle, hlt, h⟩ := cleanLoop_spec deg f 0 false (faceMem xs) xs (faceMem_from xs) hf (by simp)
  have hnum : S.num = xs.length := by
    rcases Nat.lt_or_eq_of_le hle with g | g
    · obtain ⟨d, h1, h2⟩ := hlt g
      rw [hx d h1] at h2
      cases h2
    · exact g
  refine ⟨S, e, hnum, ?_⟩
  rcases h with ⟨h, -⟩ | h
  · cases h
  · cases h with
    | skipped _ _ _ _ _ _ _ h =>
      obtain ⟨d, h2, h1⟩ := h
      rw [hx d (h1.subset List.mem_cons_self)] at h2
      cases h2
    | all kept h1 h2 h3 =>
      rw [List.filter_eq_self.2 (fun x hxx => by simp [hx x hxx])] at h2
      refine ⟨⟨kept, h2, fun k x hk => ⟨by simpa using h1.get k x hk, by simpa using h3 k x hk⟩⟩, ?_⟩
      obtain ⟨h', e', -⟩ := releaseFaces_some xs.length (faces := S.faces) (heap := S.heap) (fun a b ha hb => h1.inj a b (by omega) (by omega)) (fun a ha => by
        have hk : a < kept.length := by rw [h2.length_eq]; exact ha
        have := h1.get a kept[a] (List.getElem?_eq_getElem hk)
        rw [Nat.zero_add] at this
        rw [this]; rfl)
      rw [e']; rfl

theorem filter_lt {deg : F → Bool} {xs : List F} (h : ∃ d ∈ xs, deg d = true) : (xs.filter fun x => !deg x).length < xs.length := by
  rw [List.length_filter_lt_length_iff_exists]
  obtain ⟨d, h1, h2⟩ := h
  exact ⟨d, h1, by simp [h2]⟩

/-- With a degenerate face, faces are removed. -/
theorem Cleaned.num_lt {deg : F → Bool} {S : FaceMem F} {xs : List F} (h : Cleaned deg S 0 xs) (hd : ∃ d ∈ xs, deg d = true) : S.num < xs.length := by
  cases h with
  | all kept h1 h2 _ => rw [h1.num, h2.length_eq, Nat.zero_add]; exact filter_lt hd
  | skipped kept y h1 _ _ _ _ h7 =>
    obtain ⟨d, -, h⟩ := h7
    have := h.length_le
    rw [h1.num, Nat.zero_add]
    exact this

/-- **C60**: with a degenerate face, the release of the faces by the caller, who keeps the old number, deletes a face twice or one already deleted. -/
theorem C60_release_undefined (deg : F → Bool) (xs : List F) (f : Nat) (hf : xs.length < f) (hd : ∃ d ∈ xs, deg d = true) :
    ∃ S, cleanLoop deg f 0 false (faceMem xs) = some (some S) ∧ releaseFaces S.faces S.heap xs.length = none := by
  obtain ⟨S, e, hc⟩ := C60_clean_partial deg xs f hf
  refine ⟨S, e, ?_⟩
  have hnum := hc.num_lt hd
  have h := cleanLoop_owned (n := xs.length) f 0 false (faceMem xs) S ⟨le_refl _, fun k hk => hk, fun h => absurd h (lt_irrefl _)⟩ e
  obtain ⟨a, ha, h0⟩ := h.free hnum
  cases hr : releaseFaces S.faces S.heap xs.length with
  | none => rfl
  | some h' =>
    obtain ⟨h1, h2, -⟩ := releaseFaces_inv xs.length h' hr
    exfalso
    let g : Fin xs.length → Fin xs.length := fun k => ⟨S.faces k, h.addr k k.2⟩
    have hg : Function.Injective g := fun p q hpq => Fin.ext (h1 p q p.2 q.2 (Fin.mk.inj_iff.1 hpq))
    obtain ⟨k, hk⟩ := (Finite.injective_iff_surjective.1 hg) ⟨a, ha⟩
    have hk' : S.faces k = a := Fin.mk.inj_iff.1 hk
    have := h2 k k.2
    rw [hk', h0] at this
    cases this

/-- A stretch of faces that are not degenerate. -/
theorem cleanLoop_good {deg : F → Bool} (pre : List F) : ∀ (i f : Nat) (S : FaceMem F) (R : List F), (∀ x ∈ pre, deg x = false) → FacesFrom S i (pre ++ R) →
    ∃ S', cleanLoop deg (f + pre.length) i false S = cleanLoop deg f (i + pre.length) false S' ∧ FacesFrom S' (i + pre.length) R ∧ (∀ k, k < i → S'.normal k = S.normal k) ∧ ∀ k, i ≤ k → k < i + pre.length → (S'.normal k).isSome := by
  induction pre with
  | nil => intro i f S R _ h; exact ⟨S, rfl, h, fun _ _ => rfl, fun k h1 h2 => by simp at h2; omega⟩
  | cons x pre ih =>
    intro i f S R hp h
    have hx : S.heap (S.faces i) = some x := h.get 0 x rfl
    have h' := FacesFrom.tail (x := x) (R := pre ++ R) h (upd S.normal i (some x))
    obtain ⟨S', e, h1, h2, h3⟩ := ih (i + 1) f _ R (fun z hz => hp z (List.mem_cons_of_mem _ hz)) h'
    have hnum := h.num
    rw [List.cons_append, List.length_cons] at hnum
    refine ⟨S', ?_, ?_, fun k hk => ?_, fun k hk1 hk2 => ?_⟩
    · rw [List.length_cons, show f + (pre.length + 1) = f + pre.length + 1 by omega, cleanLoop, if_pos (by omega)]
      simp only [Bool.false_eq_true, if_false]
      unfold cleanStep
      rw [hx]
      simp only
      rw [hp x List.mem_cons_self, if_neg (by simp)]
      simp only
      rw [show i + (pre.length + 1) = i + 1 + pre.length by omega]
      exact e
    · rw [List.length_cons, show i + (pre.length + 1) = i + 1 + pre.length by omega]; exact h1
    · rw [h2 k (by omega)]; simp only [upd]; rw [if_neg (by omega)]
    · rw [List.length_cons] at hk2
      rcases Nat.lt_or_eq_of_le hk1 with g | g
      · exact h3 k (by omega) (by omega)
      · rw [h2 k (by omega), ← g]; simp [upd]

/-- **C60** for one degenerate face: the others are all processed exactly if it is not the last but one. -/
theorem C60_one_degenerate (deg : F → Bool) (pre post : List F) (d : F) (hd : deg d = true) (hpre : ∀ x ∈ pre, deg x = false) (hpost : ∀ x ∈ post, deg x = false) (f : Nat) (hf : (pre ++ d :: post).length < f) :
    ∃ S, cleanLoop deg f 0 false (faceMem (pre ++ d :: post)) = some (some S) ∧ ((∀ k, k < S.num → (S.normal k).isSome) ↔ post.length ≠ 1) := by
  obtain ⟨g, rfl⟩ : ∃ g, f = g + 1 + pre.length := ⟨f - 1 - pre.length, by simp at hf; omega⟩
  have hg : post.length < g := by simp at hf; omega
  obtain ⟨S1, e1, h1, -, n1⟩ := cleanLoop_good pre 0 (g + 1) (faceMem (pre ++ d :: post)) (d :: post) hpre (faceMem_from _)
  rw [Nat.zero_add] at e1 h1 n1
  have hx : S1.heap (S1.faces pre.length) = some d := h1.get 0 d rfl
  have hnum := h1.num
  rw [List.length_cons] at hnum
  have e2 : cleanLoop deg (g + 1) pre.length false S1 = cleanLoop deg g (pre.length + 1) true
      ⟨S1.num - 1, upd S1.faces pre.length (S1.faces (S1.num - 1)), upd S1.heap (S1.faces pre.length) none, upd S1.normal pre.length none⟩ := by
    rw [cleanLoop, if_pos (by omega)]
    simp only [Bool.false_eq_true, if_false]
    unfold cleanStep
    rw [hx]
    simp only
    rw [if_pos hd]
  rw [e1, e2]
  obtain ⟨g, rfl⟩ : ∃ g', g = g' + 1 := ⟨g - 1, by omega⟩
  rcases List.eq_nil_or_concat post with rfl | ⟨R, y, rfl⟩
  · -- the last face
    rw [List.length_nil] at hnum
    refine ⟨_, by rw [cleanLoop, if_neg (by simp only; omega)], iff_of_true (fun k hk => ?_) (by simp)⟩
    simp only [upd] at hk ⊢
    rw [if_neg (by omega)]
    exact n1 k (by omega) (by omega)
  · rw [List.concat_eq_append] at h1 hnum hg hpost ⊢
    rw [List.length_append, List.length_singleton] at hnum hg
    rcases List.eq_nil_or_concat R with rfl | ⟨R', z, rfl⟩
    · -- the last but one
      rw [List.length_nil] at hnum
      refine ⟨_, by rw [cleanLoop, if_neg (by simp only; omega)], iff_of_false (fun h => ?_) (by simp)⟩
      have := h pre.length (by simp only; omega)
      simp [upd] at this
    · have h2 := FacesFrom.swap h1 (upd S1.normal pre.length none)
      rw [List.concat_eq_append] at h2 hnum hg hpost ⊢
      rw [List.length_append, List.length_singleton] at hnum hg
      have hy : deg y = false := hpost y (by simp)
      have h3 := h2.tail (upd (upd S1.normal pre.length none) pre.length (some y))
      have hy' := h2.get 0 y rfl
      rw [Nat.add_zero] at hy'
      obtain ⟨k', rfl⟩ : ∃ k', g = k' + 1 + (R' ++ [z]).length := ⟨g - 1 - (R' ++ [z]).length, by simp; omega⟩
      obtain ⟨S3, e3, h4, n3, n4⟩ := cleanLoop_good (R' ++ [z]) (pre.length + 1) (k' + 1) _ [] (fun x hx => hpost x (by simp at hx ⊢; tauto)) (by rw [List.append_nil]; exact h3)
      have hnum3 := h4.num
      refine ⟨S3, ?_, iff_of_true (fun k hk => ?_) (by simp)⟩
      · rw [cleanLoop, if_pos (by simp only; omega)]
        simp only [if_true, Nat.add_sub_cancel]
        unfold cleanStep
        rw [hy']
        simp only
        rw [hy, if_neg (by simp)]
        simp only
        rw [e3, cleanLoop, if_neg (by rw [hnum3]; simp)]
      · rcases Nat.lt_or_ge k (pre.length + 1) with hk' | hk'
        · rw [n3 k hk']
          simp only [upd]
          split_ifs with hp
          · rfl
          · exact n1 k (by omega) (by omega)
        · refine n4 k hk' ?_
          rw [hnum3] at hk
          simpa using hk

/-- **C60** fails: with the second of three faces degenerate, the third takes its place and has no normal; with the second and third degenerate, the third is kept. -/
theorem C60_skipped_false : (∃ S, cleanLoop (fun x : Nat => x == 7) 4 0 false (faceMem [1, 7, 2]) = some (some S) ∧ S.num = 2 ∧ S.heap (S.faces 1) = some 2 ∧ S.normal 1 = none) ∧
    (∃ S, cleanLoop (fun x : Nat => x == 7) 4 0 false (faceMem [1, 7, 7]) = some (some S) ∧ S.num = 2 ∧ S.heap (S.faces 1) = some 7 ∧ S.normal 1 = none) :=
  ⟨⟨_, rfl, rfl, rfl, rfl⟩, ⟨_, rfl, rfl, rfl, rfl⟩⟩

/-- The faces of the case: triangles in the plane, degenerate as `get_3d_triangle_normal` says. -/
example : ∃ xs : List (Fin 3 → V3), (∃ d ∈ xs, (!(triNormal d).2) = true) ∧ ∃ x ∈ xs, (!(triNormal x).2) = false := by
  refine ⟨[fun _ _ => 0, fun i d => if i.val = d.val + 1 then 1 else 0], ⟨_, List.mem_cons_self, ?_⟩, ⟨_, List.mem_cons_of_mem _ List.mem_cons_self, ?_⟩⟩
  · norm_num [triNormal, normalize3, dot3]
  · norm_num [triNormal, normalize3, dot3, cross3, show ¬(2 : Fin 3) = 0 by decide, show ∀ a b c : ℝ, ![a, b, c] 2 = c from fun _ _ _ => rfl]

end VoroCrust
