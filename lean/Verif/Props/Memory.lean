import Verif.Lemmas.Memory

/-! # Properties C01 – C03: growable arrays and sorting -/

namespace VoroCrust

/-! ## Specification vocabulary -/

/-- `x'` is obtained from `x` by moving values along a permutation of positions that moves
nothing outside `[left, right]`. -/
def RearrangedBy (σ : Equiv.Perm Nat) {α : Type} (x x' : Nat → α) : Prop := ∀ k, x' k = x (σ k)

/-- A permutation of positions that fixes every position outside `[left, right]`. -/
def SupportedIn (left right : Nat) (σ : Equiv.Perm Nat) : Prop := ∀ k, k < left ∨ right < k → σ k = k

/-- Ascending order on `[left, right]`: no later key is smaller than an earlier key. -/
def AscendingOn {κ : Type} (lt : κ → κ → Bool) (left right : Nat) (x : Nat → κ) : Prop :=
  ∀ a b, left ≤ a → a < b → b ≤ right → lt (x b) (x a) = false

/-- Strict weak order (what `<` on NaN-free doubles and on `size_t` is). -/
structure StrictWeak {κ : Type} (lt : κ → κ → Bool) : Prop where
  asymm : ∀ a b, lt a b = true → lt b a = false
  negTrans : ∀ a b c, lt b a = false → lt c b = false → lt c a = false

/-! ## C01 -/

/-- **C01.** From an allocation of `cap` cells holding `xs` with `xs.length < cap`, any history of
appends succeeds without an out-of-range access, ends with the count advanced by the number of calls,
still has room for the next write, and reads back the old content followed by the appended values. -/
theorem C01_append_history {α : Type} (xs es : List α) (junk : List (Option α)) (hj : 0 < junk.length) :
    ∃ b', addEntries es { cells := xs.map some ++ junk, num := xs.length, cap := xs.length + junk.length } = some b' ∧
      b'.num = xs.length + es.length ∧ b'.num < b'.cap ∧ b'.cells.length = b'.cap ∧
      (∀ k, k < b'.num → b'.cells[k]? = some ((xs ++ es)[k]?)) := by
  obtain ⟨b', e, h⟩ := addEntries_holds es
    (b := { cells := xs.map some ++ junk, num := xs.length, cap := xs.length + junk.length }) (xs := xs)
    ⟨by simp, by show xs.length < xs.length + junk.length; omega, rfl, by simp⟩
  refine ⟨b', e, by rw [h.len]; simp, h.room, h.alloc, ?_⟩
  intro k hk
  have hc := congrArg (fun l => l[k]?) h.content
  simp only [List.getElem?_take, hk, if_true, List.getElem?_map] at hc
  rw [hc]
  have : k < (xs ++ es).length := by rw [← h.len]; exact hk
  simp [List.getElem?_eq_getElem this]

/-- **C01, precondition.** An array of capacity zero has no cell for the first entry: the code's
first write is out of range. -/
theorem C01_zero_capacity_undefined {α : Type} (e : α) :
    addEntry e ({ cells := [], num := 0, cap := 0 } : Buf α) = none := by
  simp [addEntry]

-- non-vacuity: a capacity-two array that doubles twice
example : (addEntries [7, 8, 9] ({ cells := [some 5, none], num := 1, cap := 2 } : Buf Nat)).map
    (fun b => (b.num, b.cap, b.cells.take b.num)) = some (4, 8, [some 5, some 7, some 8, some 9]) := by
  decide +kernel

/-! ## C02 -/

/-- **C02.** Sorting `[left, right]` of an array of size `n` terminates without any out-of-range
access, only rearranges positions of `[left, right]`, and leaves that range in ascending order. -/
theorem C02_quicksort_sorts {κ : Type} (lt : κ → κ → Bool) (hlt : StrictWeak lt) (n : Nat) (x : Nat → κ)
    (left right : Nat) (hlr : left ≤ right) (hr : right < n) :
    ∃ x', quicksort1 lt n x left right = some x' ∧ AscendingOn lt left right x' ∧
      ∃ σ, SupportedIn left right σ ∧ RearrangedBy σ x x' := by
  obtain ⟨x', c', L, e, h1, h2, -, h4⟩ :=
    quicksort_core (n := n) (sw := fun _ _ (u : Unit) => u) hlt.asymm (right - left + 1) x () left right hlr hr (by omega)
  refine ⟨x', by simp [quicksort1, e], fun a b => h4 hlt.negTrans a b, permOf L, fun k hk => permOf_fix h1 hk, ?_⟩
  intro k; rw [h2, runSwaps_eq]; rfl

/-- **C02, list form.** Sorting a whole non-empty array yields an ascending permutation of it. -/
theorem C02_quicksort_list {κ : Type} (lt : κ → κ → Bool) (hlt : StrictWeak lt) (n : Nat) (hn : 0 < n)
    (x : Nat → κ) :
    ∃ x', quicksort1 lt n x 0 (n - 1) = some x' ∧
      ((List.range n).map x').Pairwise (fun a b => lt b a = false) ∧
      ((List.range n).map x').Perm ((List.range n).map x) := by
  obtain ⟨x', e, hs, σ, hσ, hx⟩ := C02_quicksort_sorts lt hlt n x 0 (n - 1) (by omega) (by omega)
  refine ⟨x', e, ?_, ?_⟩
  · rw [List.pairwise_map]
    have := List.pairwise_lt_range (n := n)
    refine (List.Pairwise.and_mem.1 this).imp ?_
    rintro a b ⟨ha, hb, hab⟩
    exact hs a b (Nat.zero_le _) hab (by have := List.mem_range.1 hb; omega)
  · have hmap : (List.range n).map x' = ((List.range n).map σ).map x := by
      rw [List.map_map]; exact List.map_congr_left (fun k _ => hx k)
    rw [hmap]
    apply List.Perm.map
    rw [List.perm_ext_iff_of_nodup (List.nodup_range.map σ.injective) List.nodup_range]
    intro k
    have key : ∀ k, k < n → σ k < n := by
      intro k hk
      by_contra hc
      have h1 : σ (σ k) = σ k := hσ (σ k) (Or.inr (by omega))
      have := σ.injective h1
      omega
    constructor
    · intro hk
      obtain ⟨a, ha, rfl⟩ := List.mem_map.1 hk
      exact List.mem_range.2 (key a (List.mem_range.1 ha))
    · intro hk
      have hk := List.mem_range.1 hk
      refine List.mem_map.2 ⟨σ.symm k, List.mem_range.2 ?_, by simp⟩
      by_contra hc
      have h1 : σ (σ.symm k) = σ.symm k := hσ _ (Or.inr (by omega))
      simp at h1
      omega

/-- **C02, memory safety for any comparison.** Even for keys that are not totally ordered (NaN), the
sort terminates, stays in bounds and only rearranges `[left, right]`. -/
theorem C02_quicksort_safe {κ : Type} (lt : κ → κ → Bool) (has : ∀ a b, lt a b = true → lt b a = false)
    (n : Nat) (x : Nat → κ) (left right : Nat) (hlr : left ≤ right) (hr : right < n) :
    ∃ x', quicksort1 lt n x left right = some x' ∧ ∃ σ, SupportedIn left right σ ∧ RearrangedBy σ x x' := by
  obtain ⟨x', c', L, e, h1, h2, -, -⟩ :=
    quicksort_core (n := n) (sw := fun _ _ (u : Unit) => u) has (right - left + 1) x () left right hlr hr (by omega)
  exact ⟨x', by simp [quicksort1, e], permOf L, fun k hk => permOf_fix h1 hk, fun k => by rw [h2, runSwaps_eq]; rfl⟩

/-- The order on naturals used by the `size_t` overloads. -/
def natLt (a b : Nat) : Bool := decide (a < b)

theorem natLt_strictWeak : StrictWeak natLt where
  asymm a b h := by simp [natLt] at *; omega
  negTrans a b c h1 h2 := by simp [natLt] at *; omega

-- non-vacuity: hypotheses are met by a concrete array with repeated keys, and the sort does something
example : (quicksort1 natLt 6 (fun k => [5, 3, 9, 3, 1, 5].getD k 0) 0 5).map
    (fun x => (List.range 6).map x) = some [1, 3, 3, 5, 5, 9] := by decide +kernel
example : ∃ x', quicksort1 natLt 6 (fun k => [5, 3, 9, 3, 1, 5].getD k 0) 1 4 = some x' ∧
    AscendingOn natLt 1 4 x' := by
  obtain ⟨x', e, h, -⟩ := C02_quicksort_sorts natLt natLt_strictWeak 6 (fun k => [5, 3, 9, 3, 1, 5].getD k 0) 1 4
    (by decide) (by decide)
  exact ⟨x', e, h⟩

/-! ## C03 -/

theorem foldl_swapAt {ι : Type} (L : List (Nat × Nat)) (I : Nat → ι) :
    L.foldl (fun c q => swapAt c q.1 q.2) I = runSwaps I L := rfl

/-- **C03.** The companion array is rearranged by the very same permutation as the keys, so every
companion value stays attached to its key, and the keys are sorted. -/
theorem C03_companion_lockstep {κ ι : Type} (lt : κ → κ → Bool) (hlt : StrictWeak lt) (n : Nat)
    (x : Nat → κ) (I : Nat → ι) (left right : Nat) (hlr : left ≤ right) (hr : right < n) :
    ∃ x' I', quicksort2 lt n x I left right = some (x', I') ∧ AscendingOn lt left right x' ∧
      ∃ σ, SupportedIn left right σ ∧ RearrangedBy σ x x' ∧ RearrangedBy σ I I' := by
  obtain ⟨x', c', L, e, h1, h2, h3, h4⟩ :=
    quicksort_core (n := n) (sw := fun i j (I : Nat → ι) => swapAt I i j) hlt.asymm (right - left + 1) x I left right
      hlr hr (by omega)
  refine ⟨x', c', e, fun a b => h4 hlt.negTrans a b, permOf L, fun k hk => permOf_fix h1 hk, ?_, ?_⟩
  · intro k; rw [h2, runSwaps_eq]; rfl
  · intro k; rw [h3, foldl_swapAt, runSwaps_eq]; rfl

/-- **C03, three companions.** Same for the four-array overload of the search tree. -/
theorem C03_companions_lockstep {κ α β ι : Type} (lt : κ → κ → Bool) (hlt : StrictWeak lt) (n : Nat)
    (x : Nat → κ) (y1 : Nat → α) (y2 : Nat → β) (I : Nat → ι) (left right : Nat) (hlr : left ≤ right)
    (hr : right < n) :
    ∃ x' y1' y2' I', quicksort4 lt n x y1 y2 I left right = some (x', (y1', y2', I')) ∧
      AscendingOn lt left right x' ∧
      ∃ σ, SupportedIn left right σ ∧ RearrangedBy σ x x' ∧ RearrangedBy σ y1 y1' ∧
        RearrangedBy σ y2 y2' ∧ RearrangedBy σ I I' := by
  obtain ⟨x', c', L, e, h1, h2, h3, h4⟩ :=
    quicksort_core (n := n)
      (sw := fun i j (c : (Nat → α) × (Nat → β) × (Nat → ι)) => (swapAt c.1 i j, swapAt c.2.1 i j, swapAt c.2.2 i j))
      hlt.asymm (right - left + 1) x (y1, y2, I) left right hlr hr (by omega)
  have hfold : ∀ (L : List (Nat × Nat)) (c : (Nat → α) × (Nat → β) × (Nat → ι)),
      L.foldl (fun c q => (swapAt c.1 q.1 q.2, swapAt c.2.1 q.1 q.2, swapAt c.2.2 q.1 q.2)) c =
        (runSwaps c.1 L, runSwaps c.2.1 L, runSwaps c.2.2 L) := by
    intro L
    induction L with
    | nil => intro c; rfl
    | cons p L ih => intro c; rw [List.foldl_cons, ih]; rfl
  rw [hfold] at h3
  refine ⟨x', c'.1, c'.2.1, c'.2.2, e, fun a b => h4 hlt.negTrans a b, permOf L, fun k hk => permOf_fix h1 hk, ?_, ?_, ?_, ?_⟩
  · intro k; rw [h2, runSwaps_eq]; rfl
  · intro k; rw [h3]; simp only [runSwaps_eq]; rfl
  · intro k; rw [h3]; simp only [runSwaps_eq]; rfl
  · intro k; rw [h3]; simp only [runSwaps_eq]; rfl

example : (quicksort2 natLt 4 (fun k => [4, 2, 3, 2].getD k 0) (fun k => ["a", "b", "c", "d"].getD k "") 0 3).map
    (fun r => (List.range 4).map (fun k => (r.1 k, r.2 k))) = some [(2, "d"), (2, "b"), (3, "c"), (4, "a")] := by
  decide +kernel

end VoroCrust
