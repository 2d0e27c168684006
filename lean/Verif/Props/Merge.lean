import Verif.Model.Regions
import Mathlib.Logic.Relation
import Mathlib.Tactic.SplitIfs
import Mathlib.Data.List.Nodup
import Mathlib.Data.Finset.Card

/-! # Properties C41 and C56: merging of regions, cell-to-face lists -/

namespace VoroCrust

/-! ## C41 -/

/-- Two interior seeds (index at least `ns`) of regions `r` and `s` share a face. -/
def Contact (ns : Nat) (reg : Nat → Nat) (faces : List (Nat × Nat)) (r s : Nat) : Prop :=
  ∃ f ∈ faces, ns ≤ f.1 ∧ ns ≤ f.2 ∧ ((reg f.1 = r ∧ reg f.2 = s) ∨ (reg f.1 = s ∧ reg f.2 = r))

/-- Regions linked by a chain of contacts. -/
def Linked (ns : Nat) (reg : Nat → Nat) (faces : List (Nat × Nat)) : Nat → Nat → Prop := Relation.EqvGen (Contact ns reg faces)

theorem maxRegion_spec (reg : Nat → Nat) (n : Nat) : ∀ i, i < n → reg i ≤ maxRegion reg n := by
  induction n with
  | zero => intro i hi; omega
  | succ n ih =>
    intro i hi
    simp only [maxRegion]
    rcases Nat.lt_or_ge i n with h | h
    · have := ih i h; split_ifs <;> omega
    · obtain rfl : i = n := by omega
      split_ifs <;> omega

/-- The region at the end of the chain. -/
def rootOf (f : Nat → Nat) (r : Nat) : Nat := if _h : f r < r then rootOf f (f r) else r
termination_by r

theorem rootOf_lt {f : Nat → Nat} {r : Nat} (h : f r < r) : rootOf f r = rootOf f (f r) := by rw [rootOf, dif_pos h]

theorem rootOf_fix {f : Nat → Nat} {r : Nat} (h : f r = r) : rootOf f r = r := by rw [rootOf, dif_neg (by omega)]

theorem rootOf_step {f : Nat → Nat} (hf : ∀ r, f r ≤ r) (r : Nat) : rootOf f (f r) = rootOf f r := by
  rcases Nat.lt_or_ge (f r) r with h | h
  · exact (rootOf_lt h).symm
  · rw [show f r = r from Nat.le_antisymm (hf r) h]

theorem rootOf_le (f : Nat → Nat) (r : Nat) : rootOf f r ≤ r := by
  induction r using Nat.strong_induction_on with
  | _ r ih =>
    rw [rootOf]
    split
    · rename_i h; exact (ih _ h).trans h.le
    · exact le_refl _

theorem rootOf_root {f : Nat → Nat} (hf : ∀ r, f r ≤ r) (r : Nat) : f (rootOf f r) = rootOf f r := by
  induction r using Nat.strong_induction_on with
  | _ r ih =>
    rcases Nat.lt_or_ge (f r) r with h | h
    · rw [rootOf_lt h]; exact ih _ h
    · have : f r = r := Nat.le_antisymm (hf r) h
      rw [rootOf_fix this]; exact this

theorem rootOf_congr {f h : Nat → Nat} (r : Nat) (e : ∀ k, k ≤ r → f k = h k) : rootOf f r = rootOf h r := by
  induction r using Nat.strong_induction_on with
  | _ r ih =>
    have er := e r (le_refl _)
    by_cases hlt : f r < r
    · rw [rootOf_lt hlt, rootOf_lt (f := h) (by omega), ← er]
      exact ih _ hlt fun k hk => e k (by omega)
    · rw [rootOf, dif_neg hlt, rootOf, dif_neg (by omega)]

/-- Redirecting the root `b` or a region `b` to a value with the same root. -/
theorem rootOf_upd {f : Nat → Nat} (hf : ∀ r, f r ≤ r) {b v : Nat} (hv : v < b) (h : f b = b ∨ rootOf f v = rootOf f b) (r : Nat) :
    rootOf (upd f b v) r = if rootOf f r = b then rootOf f v else rootOf f r := by
  have hvb : rootOf (upd f b v) v = rootOf f v := rootOf_congr v fun k hk => by simp [upd, show k ≠ b by omega]
  have hb : rootOf (upd f b v) b = rootOf f v := by
    have : upd f b v b = v := by simp [upd]
    rw [rootOf_lt (by rw [this]; exact hv), this, hvb]
  induction r using Nat.strong_induction_on with
  | _ r ih =>
    by_cases hrb : r = b
    · subst hrb
      rw [hb]
      rcases h with h | h
      · rw [rootOf_fix h]; simp
      · rw [← h]; split <;> rfl
    · have e : upd f b v r = f r := by simp [upd, hrb]
      rcases Nat.lt_or_ge (f r) r with hlt | hge
      · rw [rootOf_lt (by rw [e]; exact hlt), e, ih _ hlt, ← rootOf_lt hlt]
      · have hfix : f r = r := Nat.le_antisymm (hf r) hge
        rw [rootOf_fix (by rw [e]; exact hfix), rootOf_fix hfix, if_neg hrb]

theorem chaseRegion_spec {nr : Nat} {f : Nat → Nat} (hf : ∀ r, f r ≤ r) (fuel id : Nat) (hid : id < nr) (hfu : id < fuel) :
    chaseRegion nr f fuel id = some (rootOf f id) := by
  induction fuel generalizing id with
  | zero => omega
  | succ fuel ih =>
    simp only [chaseRegion, if_pos hid]
    by_cases h : f id = id
    · rw [if_neg (by simp [h]), rootOf_fix h]
    · have hlt : f id < id := lt_of_le_of_ne (hf id) h
      rw [if_pos h, ih (f id) (by omega) (by omega), ← rootOf_lt hlt]

theorem chaseRegions_spec {nr : Nat} {f : Nat → Nat} (hf : ∀ r, f r ≤ r) (m : Nat) (hm : m ≤ nr) :
    ∃ q, chaseRegions nr f m = some q ∧ ∀ r, q r = if r < m then rootOf f r else f r := by
  induction m with
  | zero => exact ⟨f, rfl, fun r => by simp⟩
  | succ m ih =>
    obtain ⟨q, e, hq⟩ := ih (by omega)
    have hqm : q m = f m := by rw [hq, if_neg (by omega)]
    have hqle : ∀ r, q r ≤ r := fun r => by
      rw [hq]; split
      · exact rootOf_le f r
      · exact hf r
    by_cases hfix : q m = m
    · refine ⟨q, by simp only [chaseRegions, e, if_pos hfix], fun r => ?_⟩
      rw [hq]
      by_cases hr : r = m
      · subst hr; rw [if_neg (by omega), if_pos (by omega), rootOf_fix (by rw [← hqm]; exact hfix), ← hqm, hfix]
      · have : (r < m + 1 ↔ r < m) := by omega
        simp [this]
    · have hlt : q m < m := lt_of_le_of_ne (hqle m) hfix
      have hroot : rootOf q (q m) = rootOf f m := by
        have h1 : q (q m) = rootOf f (q m) := by rw [hq (q m), if_pos hlt]
        have h2 : rootOf f (q m) = rootOf f m := by rw [hqm]; exact rootOf_step hf m
        have h3 : q (rootOf f m) = rootOf f m := by
          rw [hq, if_pos (by have := rootOf_le f (q m); rw [h2] at this; omega)]
          exact rootOf_fix (rootOf_root hf m)
        rw [← rootOf_step hqle (q m), h1, h2, rootOf_fix h3]
      refine ⟨upd q m (rootOf f m), ?_, fun r => ?_⟩
      · have := chaseRegion_spec hqle (nr + 1) (q m) (show q m < nr by omega) (by omega)
        rw [hroot] at this
        simp only [chaseRegions, e, if_neg hfix, this]
      · by_cases hr : r = m
        · subst hr; simp [upd]
        · have : (r < m + 1 ↔ r < m) := by omega
          simp [upd, hr, hq, this]

/-- One face: what changes. -/
theorem mergeFace_spec {n ns nr : Nat} {reg : Nat → Nat} {f : Nat → Nat} (hf : ∀ r, f r ≤ r) (p : Nat × Nat) (h1 : p.1 < n) (h2 : p.2 < n)
    (hr : ∀ i, i < n → reg i < nr) :
    ∃ f', mergeFace n ns nr reg f p = some f' ∧
      (f' = f ∧ (p.1 < ns ∨ p.2 < ns ∨ f (reg p.1) = f (reg p.2)) ∨
        ∃ b c, ns ≤ p.1 ∧ ns ≤ p.2 ∧ ((b = reg p.1 ∧ c = reg p.2) ∨ (b = reg p.2 ∧ c = reg p.1)) ∧ f b < f c ∧ f' = upd f c (f b)) := by
  unfold mergeFace
  by_cases hs : p.1 < ns ∨ p.2 < ns
  · exact ⟨f, by rw [if_pos hs], Or.inl ⟨rfl, by omega⟩⟩
  · rw [if_neg hs, if_pos ⟨h1, h2, hr _ h1, hr _ h2⟩]
    by_cases he : f (reg p.1) = f (reg p.2)
    · exact ⟨f, by rw [if_pos he], Or.inl ⟨rfl, Or.inr (Or.inr he)⟩⟩
    · rw [if_neg he]
      by_cases hl : f (reg p.1) < f (reg p.2)
      · exact ⟨_, if_pos hl, Or.inr ⟨reg p.1, reg p.2, by omega, by omega, Or.inl ⟨rfl, rfl⟩, hl, rfl⟩⟩
      · exact ⟨_, if_neg hl, Or.inr ⟨reg p.2, reg p.1, by omega, by omega, Or.inr ⟨rfl, rfl⟩, by omega, rfl⟩⟩

theorem mergeFaces_sound {n ns nr : Nat} {reg : Nat → Nat} (hr : ∀ i, i < n → reg i < nr) (E : Nat → Nat → Prop) (hE : Equivalence E)
    (faces : List (Nat × Nat)) (hfaces : ∀ p ∈ faces, p.1 < n ∧ p.2 < n)
    (hcon : ∀ p ∈ faces, ns ≤ p.1 → ns ≤ p.2 → E (reg p.1) (reg p.2)) (f : Nat → Nat) (hf : ∀ r, f r ≤ r) (hfE : ∀ r, E r (f r)) :
    ∃ f', mergeFaces n ns nr reg faces f = some f' ∧ (∀ r, f' r ≤ r) ∧ ∀ r, E r (f' r) := by
  induction faces generalizing f with
  | nil => exact ⟨f, rfl, hf, hfE⟩
  | cons p ps ih =>
    obtain ⟨f1, e1, h⟩ := mergeFace_spec (ns := ns) hf p (hfaces p (by simp)).1 (hfaces p (by simp)).2 hr
    have key : (∀ r, f1 r ≤ r) ∧ ∀ r, E r (f1 r) := by
      rcases h with ⟨rfl, -⟩ | ⟨b, c, hp1, hp2, hbc, hlt, rfl⟩
      · exact ⟨hf, hfE⟩
      · have hE' : E b c := by
          have := hcon p (by simp) hp1 hp2
          rcases hbc with ⟨rfl, rfl⟩ | ⟨rfl, rfl⟩
          · exact this
          · exact hE.symm this
        constructor <;> intro r
        · by_cases hrc : r = c
          · subst hrc; simp only [upd, if_true]; have := hf r; omega
          · simp only [upd, if_neg hrc]; exact hf r
        · by_cases hrc : r = c
          · subst hrc; simp only [upd, if_true]; exact hE.trans (hE.symm hE') (hfE b)
          · simp only [upd, if_neg hrc]; exact hfE r
    obtain ⟨f', e', r⟩ := ih (fun q hq => hfaces q (by simp [hq])) (fun q hq => hcon q (by simp [hq])) f1 key.1 key.2
    exact ⟨f', by simp only [mergeFaces, e1, e'], r⟩

theorem linked_equivalence (ns : Nat) (reg : Nat → Nat) (faces : List (Nat × Nat)) : Equivalence (Linked ns reg faces) :=
  Relation.EqvGen.is_equivalence _

theorem rootOf_linked {E : Nat → Nat → Prop} (hE : Equivalence E) {f : Nat → Nat} (h : ∀ r, E r (f r)) (r : Nat) : E r (rootOf f r) := by
  induction r using Nat.strong_induction_on with
  | _ r ih =>
    rw [rootOf]
    split
    · rename_i hlt; exact hE.trans (h r) (ih _ hlt)
    · exact hE.refl r

theorem mergeRegions_eq {n ns : Nat} {reg : Nat → Nat} {faces : List (Nat × Nat)} {f : Nat → Nat}
    (e : mergeFaces n ns (maxRegion reg n + 1) reg faces (fun r => r) = some f) (hf : ∀ r, f r ≤ r) :
    ∃ k, mergeRegions n ns reg faces = some (k, (((Finset.range (maxRegion reg n + 1)).filter fun r => f r = r).card - 1)) ∧
      ∀ i, i < n → k i = rootOf f (reg i) := by
  obtain ⟨q, eq, hq⟩ := chaseRegions_spec (nr := maxRegion reg n + 1) hf _ (le_refl _)
  refine ⟨fun i => q (reg i), ?_, fun i hi => ?_⟩
  · have hc : ∀ m, m ≤ maxRegion reg n + 1 → countActive q m = ((Finset.range m).filter fun r => f r = r).card := by
      intro m hm
      induction m with
      | zero => rfl
      | succ m ih =>
        rw [countActive, ih (by omega), Finset.range_add_one, Finset.filter_insert]
        have : q m = m ↔ f m = m := by
          rw [hq, if_pos (by omega)]
          refine ⟨fun h => ?_, fun h => rootOf_fix h⟩
          have := rootOf_root hf m
          rwa [h] at this
        by_cases h : f m = m
        · rw [if_pos (this.2 h), if_pos h, Finset.card_insert_of_notMem (by simp)]
        · rw [if_neg (fun h' => h (this.1 h')), if_neg h]; rfl
    unfold mergeRegions
    simp only [e, eq, hc _ (le_refl _)]
  · show q (reg i) = _
    rw [hq, if_pos (by have := maxRegion_spec reg n i hi; omega)]

/-- **C41, the part that holds.** For every list of faces between existing seeds the merging terminates without out-of-range access, seeds that get the same region
were in regions linked by a chain of contacts (unlinked regions stay distinct), new ids never exceed old ones (so region 0 keeps id 0), and a second look-up changes
nothing: the new id of a seed whose region is already a new id is that id.  Missing: linked regions need not get the same id, see
`C41_chain_lost_false`. -/
theorem C41_merge_partial (n ns : Nat) (reg : Nat → Nat) (faces : List (Nat × Nat)) (hfaces : ∀ p ∈ faces, p.1 < n ∧ p.2 < n) :
    ∃ k a, mergeRegions n ns reg faces = some (k, a) ∧ (∀ i j, i < n → j < n → k i = k j → Linked ns reg faces (reg i) (reg j)) ∧
      (∀ i, i < n → Linked ns reg faces (reg i) (k i)) ∧ (∀ i, i < n → k i ≤ reg i) ∧ (∀ i, i < n → reg i = 0 → k i = 0) ∧
      (∀ i j, i < n → j < n → reg i = reg j → k i = k j) ∧ ∀ i j, i < n → j < n → reg j = k i → k j = k i := by
  have hr : ∀ i, i < n → reg i < maxRegion reg n + 1 := fun i hi => by have := maxRegion_spec reg n i hi; omega
  have hE := linked_equivalence ns reg faces
  obtain ⟨f, e, hf, hfE⟩ := mergeFaces_sound (ns := ns) hr (Linked ns reg faces) hE faces hfaces
    (fun p hp h1 h2 => .rel _ _ ⟨p, hp, h1, h2, Or.inl ⟨rfl, rfl⟩⟩) (fun r => r) (fun _ => le_refl _) (fun r => hE.refl r)
  obtain ⟨k, e', hk⟩ := mergeRegions_eq e hf
  refine ⟨k, _, e', fun i j hi hj h => ?_, fun i hi => ?_, fun i hi => ?_, fun i hi h0 => ?_, fun i j hi hj h => ?_, fun i j hi hj h => ?_⟩
  · have h1 := rootOf_linked hE hfE (reg i)
    have h2 := rootOf_linked hE hfE (reg j)
    rw [hk i hi, hk j hj] at h
    rw [h] at h1
    exact hE.trans h1 (hE.symm h2)
  · rw [hk i hi]; exact rootOf_linked hE hfE _
  · rw [hk i hi]; exact rootOf_le _ _
  · have := rootOf_le f (reg i)
    rw [hk i hi]; omega
  · rw [hk i hi, hk j hj, h]
  · rw [hk j hj, h, hk i hi]; exact rootOf_fix (rootOf_root hf _)

/-- Each region has at most one smaller region it is in contact with. -/
def OneParent (ns : Nat) (reg : Nat → Nat) (faces : List (Nat × Nat)) : Prop :=
  ∀ a b c, Contact ns reg faces a c → Contact ns reg faces b c → a < c → b < c → a = b

/-- The table after the faces `done`. -/
structure MergeInv (ns : Nat) (reg : Nat → Nat) (done : List (Nat × Nat)) (f : Nat → Nat) : Prop where
  le : ∀ r, f r ≤ r
  start : ∀ c, f c = c → ∀ a, a < c → ¬ Contact ns reg done a c
  moved : ∀ c, f c < c → ∃ a, a < c ∧ Contact ns reg done a c ∧ f a ≤ f c
  root : ∀ a c, a < c → Contact ns reg done a c → rootOf f c = rootOf f a

theorem contact_snoc {ns : Nat} {reg : Nat → Nat} {fs : List (Nat × Nat)} {p : Nat × Nat} {a c : Nat} :
    Contact ns reg (fs ++ [p]) a c ↔ Contact ns reg fs a c ∨
      (ns ≤ p.1 ∧ ns ≤ p.2 ∧ ((reg p.1 = a ∧ reg p.2 = c) ∨ (reg p.1 = c ∧ reg p.2 = a))) := by
  unfold Contact
  constructor
  · rintro ⟨q, hq, h⟩
    rcases List.mem_append.1 hq with hq | hq
    · exact Or.inl ⟨q, hq, h⟩
    · rw [List.mem_singleton] at hq; subst hq; exact Or.inr h
  · rintro (⟨q, hq, h⟩ | h)
    · exact ⟨q, by simp [hq], h⟩
    · exact ⟨p, by simp, h⟩

theorem mergeInv_step {n ns nr : Nat} {reg : Nat → Nat} {done : List (Nat × Nat)} {f : Nat → Nat} (hr : ∀ i, i < n → reg i < nr)
    (p : Nat × Nat) (h1 : p.1 < n) (h2 : p.2 < n) (hu : OneParent ns reg (done ++ [p])) (h : MergeInv ns reg done f) :
    ∃ f', mergeFace n ns nr reg f p = some f' ∧ MergeInv ns reg (done ++ [p]) f' := by
  obtain ⟨f', e, hcase⟩ := mergeFace_spec (ns := ns) h.le p h1 h2 hr
  refine ⟨f', e, ?_⟩
  have mono : ∀ {a c}, Contact ns reg done a c → Contact ns reg (done ++ [p]) a c := fun hc => contact_snoc.2 (Or.inl hc)
  rcases hcase with ⟨rfl, hno⟩ | ⟨b, c, hp1, hp2, hbc, hlt, rfl⟩
  · -- nothing changes: no contact, or a contact of regions with the same value
    by_cases hs : p.1 < ns ∨ p.2 < ns
    · have iff : ∀ a c, Contact ns reg (done ++ [p]) a c ↔ Contact ns reg done a c := fun a c => by
        rw [contact_snoc]; refine ⟨fun h => h.resolve_right fun h' => by omega, Or.inl⟩
      exact ⟨h.le, fun c hc a ha hac => h.start c hc a ha ((iff _ _).1 hac),
        fun c hc => by obtain ⟨a, x, y, z⟩ := h.moved c hc; exact ⟨a, x, mono y, z⟩, fun a c ha hac => h.root a c ha ((iff _ _).1 hac)⟩
    · have heq : f' (reg p.1) = f' (reg p.2) := by omega
      refine ⟨h.le, fun c hc a ha hac => ?_, fun c hc => by obtain ⟨a, x, y, z⟩ := h.moved c hc; exact ⟨a, x, mono y, z⟩, fun a c ha hac => ?_⟩
      · rcases contact_snoc.1 hac with hac | ⟨-, -, ⟨rfl, rfl⟩ | ⟨rfl, rfl⟩⟩
        · exact h.start c hc a ha hac
        · have := h.le (reg p.1); omega
        · have := h.le (reg p.2); omega
      · rcases contact_snoc.1 hac with hac | ⟨-, -, ⟨rfl, rfl⟩ | ⟨rfl, rfl⟩⟩
        · exact h.root a c ha hac
        · rw [← rootOf_step h.le (reg p.2), ← heq, rootOf_step h.le]
        · rw [← rootOf_step h.le (reg p.1), heq, rootOf_step h.le]
  · have hcon : Contact ns reg (done ++ [p]) b c := by
      rw [contact_snoc]; right
      refine ⟨hp1, hp2, ?_⟩
      rcases hbc with ⟨rfl, rfl⟩ | ⟨rfl, rfl⟩
      · exact Or.inl ⟨rfl, rfl⟩
      · exact Or.inr ⟨rfl, rfl⟩
    have hcon' : Contact ns reg (done ++ [p]) c b := by
      obtain ⟨q, hq, a1, a2, a3⟩ := hcon; exact ⟨q, hq, a1, a2, a3.symm⟩
    have hne : b ≠ c := by rintro rfl; omega
    -- the smaller region has the smaller value
    have hblt : b < c := by
      by_contra hge
      have hcb : c < b := by omega
      have := h.le c
      obtain ⟨a, ha, hab, hv⟩ := h.moved b (by omega)
      have := hu a c b (mono hab) hcon' ha hcb
      subst this; omega
    have hv : f b < c := lt_of_le_of_lt (h.le b) hblt
    have hcase : f c = c ∨ rootOf f (f b) = rootOf f c := by
      rcases Nat.lt_or_ge (f c) c with hl | hg
      · obtain ⟨a, ha, hac, -⟩ := h.moved c hl
        have := hu a b c (mono hac) hcon ha hblt
        subst this
        exact Or.inr ((rootOf_step h.le a).trans (h.root a c ha hac).symm)
      · exact Or.inl (Nat.le_antisymm (h.le c) hg)
    have hroot := rootOf_upd h.le hv hcase
    have hle' : ∀ r, upd f c (f b) r ≤ f r := fun r => by
      by_cases hrc : r = c
      · subst hrc; simp only [upd, if_true]; omega
      · simp [upd, hrc]
    refine ⟨fun r => (hle' r).trans (h.le r), fun d hd a ha hac => ?_, fun d hd => ?_, fun a d ha hac => ?_⟩
    · by_cases hdc : d = c
      · subst hdc; simp only [upd, if_true] at hd; omega
      · simp only [upd, if_neg hdc] at hd
        rcases contact_snoc.1 hac with hac | ⟨-, -, hac⟩
        · exact h.start d hd a ha hac
        · rcases hbc with ⟨rfl, rfl⟩ | ⟨rfl, rfl⟩ <;> rcases hac with ⟨rfl, rfl⟩ | ⟨rfl, rfl⟩ <;> omega
    · by_cases hdc : d = c
      · subst hdc
        refine ⟨b, hblt, hcon, ?_⟩
        simp [upd, hne]
      · simp only [upd, if_neg hdc] at hd
        obtain ⟨a, ha, hac, hv⟩ := h.moved d hd
        exact ⟨a, ha, mono hac, by rw [show upd f c (f b) d = f d by simp [upd, hdc]]; exact (hle' a).trans hv⟩
    · rw [hroot d, hroot a]
      have : rootOf f d = rootOf f a ∨ (a = b ∧ d = c) := by
        rcases contact_snoc.1 hac with hac | ⟨-, -, hac⟩
        · exact Or.inl (h.root a d ha hac)
        · right
          rcases hbc with ⟨rfl, rfl⟩ | ⟨rfl, rfl⟩ <;> rcases hac with ⟨rfl, rfl⟩ | ⟨rfl, rfl⟩ <;> first | exact ⟨rfl, rfl⟩ | omega
      rcases this with this | ⟨rfl, rfl⟩
      · rw [this]
      · have hb : rootOf f (f a) = rootOf f a := rootOf_step h.le a
        have hne' : rootOf f a ≠ d := by have := rootOf_le f a; omega
        rw [if_neg hne']
        rcases hcase with hc | hc
        · rw [rootOf_fix hc, if_pos rfl, hb]
        · rw [← hc, hb, if_neg hne']

theorem mergeFaces_inv {n ns nr : Nat} {reg : Nat → Nat} (hr : ∀ i, i < n → reg i < nr) (done fs : List (Nat × Nat))
    (hfaces : ∀ p ∈ fs, p.1 < n ∧ p.2 < n) (hu : OneParent ns reg (done ++ fs)) (f : Nat → Nat) (h : MergeInv ns reg done f) :
    ∃ f', mergeFaces n ns nr reg fs f = some f' ∧ MergeInv ns reg (done ++ fs) f' := by
  induction fs generalizing done f with
  | nil => exact ⟨f, rfl, by simpa using h⟩
  | cons p ps ih =>
    have hsub : OneParent ns reg (done ++ [p]) := by
      intro a b c h1 h2
      have up : ∀ {x y}, Contact ns reg (done ++ [p]) x y → Contact ns reg (done ++ p :: ps) x y := by
        rintro x y ⟨q, hq, hh⟩
        refine ⟨q, ?_, hh⟩
        rcases List.mem_append.1 hq with hq | hq
        · simp [hq]
        · rw [List.mem_singleton] at hq; simp [hq]
      exact hu a b c (up h1) (up h2)
    obtain ⟨f1, e1, h1⟩ := mergeInv_step hr p (hfaces p (by simp)).1 (hfaces p (by simp)).2 hsub h
    obtain ⟨f', e', h'⟩ := ih (done ++ [p]) (fun q hq => hfaces q (by simp [hq])) (by simpa using hu) f1 h1
    exact ⟨f', by simp only [mergeFaces, e1, e'], by simpa using h'⟩

/-- **C41, tree-like contacts.** If every region touches at most one region with a smaller id, merging does what is wanted: two seeds get the same region
exactly when a chain of contacts links their regions. -/
theorem C41_single_parent_partial (n ns : Nat) (reg : Nat → Nat) (faces : List (Nat × Nat)) (hfaces : ∀ p ∈ faces, p.1 < n ∧ p.2 < n)
    (hu : OneParent ns reg faces) :
    ∃ k a, mergeRegions n ns reg faces = some (k, a) ∧ ∀ i j, i < n → j < n → (k i = k j ↔ Linked ns reg faces (reg i) (reg j)) := by
  obtain ⟨k, a, e, h1, -⟩ := C41_merge_partial n ns reg faces hfaces
  refine ⟨k, a, e, fun i j hi hj => ⟨h1 i j hi hj, fun hl => ?_⟩⟩
  have hr : ∀ i, i < n → reg i < maxRegion reg n + 1 := fun i hi => by have := maxRegion_spec reg n i hi; omega
  obtain ⟨f, ef, hf⟩ := mergeFaces_inv hr [] faces hfaces (by simpa using hu) (fun r => r)
    ⟨fun _ => le_refl _, fun c _ a _ hac => by obtain ⟨q, hq, -⟩ := hac; simp at hq, fun c hc => by simp at hc,
      fun a c _ hac => by obtain ⟨q, hq, -⟩ := hac; simp at hq⟩
  rw [List.nil_append] at hf
  obtain ⟨k', e', hk⟩ := mergeRegions_eq ef hf.le
  rw [e'] at e
  obtain ⟨rfl, -⟩ := Prod.mk.inj (Option.some.inj e)
  rw [hk i hi, hk j hj]
  have : ∀ r s, Linked ns reg faces r s → rootOf f r = rootOf f s := by
    intro r s h
    induction h with
    | rel r s h =>
      rcases Nat.lt_trichotomy r s with hlt | rfl | hlt
      · exact (hf.root r s hlt h).symm
      · rfl
      · obtain ⟨q, hq, a1, a2, a3⟩ := h
        exact hf.root s r hlt ⟨q, hq, a1, a2, a3.symm⟩
    | refl => rfl
    | symm _ _ _ ih => exact ih.symm
    | trans _ _ _ _ _ ih1 ih2 => exact ih1.trans ih2
  exact this _ _ hl

/-- **C41 is false in general.** Regions 2 and 3 touch, then 1 and 3: region 3 moves on to 1 and region 2 is left behind, although all three are linked. -/
theorem C41_chain_lost_false :
    ∃ (n ns : Nat) (reg : Nat → Nat) (faces : List (Nat × Nat)) (k : Nat → Nat) (a : Nat), (∀ p ∈ faces, p.1 < n ∧ p.2 < n) ∧
      mergeRegions n ns reg faces = some (k, a) ∧ ∃ i j, i < n ∧ j < n ∧ Linked ns reg faces (reg i) (reg j) ∧ k i ≠ k j := by
  refine ⟨4, 0, fun i => i, [(2, 3), (1, 3)], fun i => (chaseRegions 4 (upd (upd (fun r => r) 3 2) 3 1) 4).getD (fun r => r) i, 2, by decide, ?_, 2, 3, by decide, by decide, ?_, by decide⟩
  · have hm : maxRegion (fun i => i) 4 = 3 := by decide
    have hf : mergeFaces 4 0 4 (fun i => i) [(2, 3), (1, 3)] (fun r => r) = some (upd (upd (fun r => r) 3 2) 3 1) := by
      simp [mergeFaces, mergeFace, upd]
    obtain ⟨q, eq, -⟩ := chaseRegions_spec (nr := 4) (f := upd (upd (fun r => r) 3 2) 3 1) (by intro r; simp only [upd]; split_ifs <;> omega) 4 (le_refl _)
    have hcount : (chaseRegions 4 (upd (upd (fun r => r) 3 2) 3 1) 4).map (fun q => countActive q 4 - 1) = some 2 := by decide
    rw [eq] at hcount
    simp only [mergeRegions, hm, hf, eq, Option.getD_some]
    simp only [Option.map_some, Option.some.injEq] at hcount
    rw [hcount]
  · exact .rel _ _ ⟨(2, 3), by simp, by decide, by decide, Or.inl ⟨rfl, rfl⟩⟩

-- non-vacuity: contacts 2-1, 3-1, 4-2 are tree-like; all of 1, 2, 3, 4 become region 1, region 0 and 5 stay
example : (mergeRegions 7 1 (fun i => if i = 0 then 0 else i - 1) [(0, 1), (3, 2), (2, 4), (5, 3)]).map (fun r => ((List.range 7).map r.1, r.2)) =
    some ([0, 0, 1, 1, 1, 1, 5], 2) := by decide +kernel

example : OneParent 1 (fun i => if i = 0 then 0 else i - 1) [(0, 1), (3, 2), (2, 4), (5, 3)] := by
  rintro a b c ⟨p, hp, h1, h2, h3⟩ ⟨q, hq, h4, h5, h6⟩ ha hb
  simp only [List.mem_cons, List.not_mem_nil, or_false] at hp hq
  rcases hp with rfl | rfl | rfl | rfl <;> rcases hq with rfl | rfl | rfl | rfl <;> simp at * <;> omega

/-! ## C56 -/

/-- The faces incident to cell `i`, numbered from `j`, twice if both sides are `i`. -/
def incident (i : Nat) : List (Nat × Nat) → Nat → List Nat
  | [], _ => []
  | f :: fs, j => (if f.1 = i then [j] else []) ++ (if f.2 = i then [j] else []) ++ incident i fs (j + 1)

theorem countCellFaces_spec (n : Nat) (reg : Nat → Nat) (fs : List (Nat × Nat)) (h : ∀ p ∈ fs, p.1 < n ∧ p.2 < n) (j : Nat) (k : Nat → Nat) :
    ∃ k', countCellFaces n reg fs k = some k' ∧ ∀ i, k' i = k i + if reg i ≠ 0 then (incident i fs j).length else 0 := by
  induction fs generalizing j k with
  | nil => exact ⟨k, rfl, fun i => by simp [incident]⟩
  | cons f fs ih =>
    simp only [countCellFaces, if_pos (h f (by simp))]
    obtain ⟨k', e, hk⟩ := ih (fun p hp => h p (by simp [hp])) (j + 1)
      (if reg f.2 ≠ 0 then upd (if reg f.1 ≠ 0 then upd k f.1 (k f.1 + 1) else k) f.2 ((if reg f.1 ≠ 0 then upd k f.1 (k f.1 + 1) else k) f.2 + 1)
        else if reg f.1 ≠ 0 then upd k f.1 (k f.1 + 1) else k)
    refine ⟨k', e, fun i => ?_⟩
    rw [hk i]
    simp only [incident, List.length_append]
    by_cases h0 : reg i = 0
    · have e1 : f.1 = i → reg f.1 = 0 := fun h => by rw [h, h0]
      have e2 : f.2 = i → reg f.2 = 0 := fun h => by rw [h, h0]
      have n1 : reg f.1 ≠ 0 → ¬ i = f.1 := fun h h' => h (e1 h'.symm)
      have n2 : reg f.2 ≠ 0 → ¬ i = f.2 := fun h h' => h (e2 h'.symm)
      simp only [h0, ne_eq, not_true_eq_false, if_false, Nat.add_zero]
      by_cases h3 : reg f.1 = 0 <;> by_cases h4 : reg f.2 = 0 <;> simp [h3, h4, upd, n1, n2]
    · simp only [ne_eq, h0, not_false_eq_true, if_true]
      by_cases h1 : f.1 = i <;> by_cases h2 : f.2 = i
      · subst h1; simp [h2, h0, upd]; omega
      · subst h1
        have : ¬ f.1 = f.2 := fun h => h2 h.symm
        by_cases h3 : reg f.2 = 0 <;> simp [h0, h2, h3, upd, this] <;> omega
      · subst h2
        have : ¬ f.2 = f.1 := fun h => h1 h.symm
        by_cases h3 : reg f.1 = 0 <;> simp [h0, h1, h3, upd, this] <;> omega
      · have e1 : ¬ i = f.1 := fun h => h1 h.symm
        have e2 : ¬ i = f.2 := fun h => h2 h.symm
        by_cases h3 : reg f.1 = 0 <;> by_cases h4 : reg f.2 = 0 <;> simp [h1, h2, h3, h4, upd, e1, e2]

theorem allocCells_spec (reg : Nat → Nat) (k : Nat → Nat) (n : Nat) :
    (∀ i, (allocCells reg k n).1 i = if i < n ∧ reg i ≠ 0 then some { cap := k i, cells := fun _ => 0 } else none) ∧
      (∀ i, (allocCells reg k n).2.1 i = if i < n ∧ reg i ≠ 0 then 0 else k i) ∧
      (allocCells reg k n).2.2 = ((Finset.range n).filter fun i => reg i ≠ 0).card := by
  induction n with
  | zero => simp [allocCells]
  | succ n ih =>
    obtain ⟨h1, h2, h3⟩ := ih
    have hlt : ∀ i, i ≠ n → (i < n + 1 ↔ i < n) := fun i hi => by omega
    by_cases h0 : reg n = 0
    · simp only [allocCells, if_pos h0]
      refine ⟨fun i => ?_, fun i => ?_, ?_⟩
      · rw [h1]; by_cases hi : i = n
        · subst hi; simp [h0]
        · simp [hlt i hi]
      · rw [h2]; by_cases hi : i = n
        · subst hi; simp [h0]
        · simp [hlt i hi]
      · rw [h3, Finset.range_add_one, Finset.filter_insert, if_neg (by simp [h0])]
    · simp only [allocCells, if_neg h0]
      refine ⟨fun i => ?_, fun i => ?_, ?_⟩
      · by_cases hi : i = n
        · subst hi; simp [upd, h0, h2]
        · simp [upd, hi, h1, hlt i hi]
      · by_cases hi : i = n
        · subst hi; simp [upd, h0]
        · simp [upd, hi, h2, hlt i hi]
      · rw [h3, Finset.range_add_one, Finset.filter_insert, if_pos h0, Finset.card_insert_of_notMem (by simp)]

/-- Contents of the lists. -/
structure CellsAre (n : Nat) (reg : Nat → Nat) (s : (Nat → Option CellList) × (Nat → Nat)) (have_ need : Nat → List Nat) : Prop where
  lists : ∀ i, i < n → reg i ≠ 0 → ∃ l, s.1 i = some l ∧ l.cap = (have_ i).length + (need i).length ∧ s.2 i = (have_ i).length ∧
    (List.range (s.2 i)).map l.cells = have_ i
  ghosts : ∀ i, i < n → reg i = 0 → s.1 i = none ∧ s.2 i = 0

theorem pushCell_spec {n : Nat} {reg : Nat → Nat} {s : (Nat → Option CellList) × (Nat → Nat)} {hv nd : Nat → List Nat} (h : CellsAre n reg s hv nd) {i j : Nat}
    (hi : i < n) (hreg : reg i ≠ 0) {t : List Nat} (hnd : nd i = j :: t) :
    ∃ s', pushCell s.1 s.2 i j = some s' ∧ CellsAre n reg s' (upd hv i (hv i ++ [j])) (upd nd i t) := by
  obtain ⟨l, e, hc, hk, hl⟩ := h.lists i hi hreg
  rw [hnd] at hc
  simp only [List.length_cons] at hc
  refine ⟨_, by simp only [pushCell, e, if_pos (show s.2 i < l.cap by omega)]; rfl, ?_, ?_⟩
  · intro q hq hr
    by_cases hqi : q = i
    · subst hqi
      refine ⟨_, by simp only [upd, if_true]; rfl, by simp [upd]; omega, by simp [upd, hk], ?_⟩
      simp only [upd, if_true, List.range_succ, List.map_append, List.map_cons, List.map_nil]
      rw [← hl]
      congr 1
      apply List.map_congr_left
      intro x hx
      rw [List.mem_range] at hx
      rw [upd, if_neg (by omega)]
    · obtain ⟨l', a⟩ := h.lists q hq hr
      exact ⟨l', by simpa [upd, hqi] using a⟩
  · intro q hq hr
    have hqi : q ≠ i := by rintro rfl; exact hreg hr
    simpa [upd, hqi] using h.ghosts q hq hr

theorem CellsAre.congr {n : Nat} {reg : Nat → Nat} {s : (Nat → Option CellList) × (Nat → Nat)} {hv nd hv' nd' : Nat → List Nat} (h : CellsAre n reg s hv nd)
    (h1 : ∀ i, i < n → reg i ≠ 0 → hv' i = hv i) (h2 : ∀ i, i < n → reg i ≠ 0 → nd' i = nd i) : CellsAre n reg s hv' nd' :=
  ⟨fun i hi hr => by rw [h1 i hi hr, h2 i hi hr]; exact h.lists i hi hr, h.ghosts⟩

theorem pushSide {n : Nat} {reg : Nat → Nat} {s : (Nat → Option CellList) × (Nat → Nat)} {hv nd : Nat → List Nat} (c j : Nat) (hc : c < n)
    (h : CellsAre n reg s hv fun i => (if c = i then [j] else []) ++ nd i) :
    ∃ s', (if reg c ≠ 0 then pushCell s.1 s.2 c j else some s) = some s' ∧ CellsAre n reg s' (fun i => hv i ++ if c = i then [j] else []) nd := by
  by_cases hr : reg c = 0
  · refine ⟨s, by simp [hr], h.congr (fun i _ hi => ?_) (fun i _ hi => ?_)⟩
    · rw [if_neg (by rintro rfl; exact hi hr)]; simp
    · rw [if_neg (by rintro rfl; exact hi hr)]; simp
  · obtain ⟨s', e, h'⟩ := pushCell_spec h hc hr (j := j) (t := nd c) (by simp)
    refine ⟨s', by simp [hr, e], h'.congr (fun i _ _ => ?_) (fun i _ _ => ?_)⟩
    · by_cases hi : i = c
      · subst hi; simp [upd]
      · simp [upd, hi, Ne.symm hi]
    · by_cases hi : i = c
      · subst hi; simp [upd]
      · simp [upd, hi, Ne.symm hi]

theorem fillCells_spec {n : Nat} {reg : Nat → Nat} (fs : List (Nat × Nat)) (h : ∀ p ∈ fs, p.1 < n ∧ p.2 < n) (j : Nat)
    (s : (Nat → Option CellList) × (Nat → Nat)) (hv : Nat → List Nat) (hs : CellsAre n reg s hv fun i => incident i fs j) :
    ∃ s', fillCells n reg fs j s = some s' ∧ CellsAre n reg s' (fun i => hv i ++ incident i fs j) fun _ => [] := by
  induction fs generalizing j s hv with
  | nil => exact ⟨s, rfl, hs.congr (fun i _ _ => by simp [incident]) (fun i _ _ => by simp [incident])⟩
  | cons f fs ih =>
    have hf := h f (by simp)
    obtain ⟨s1, e1, h1⟩ := pushSide f.1 j hf.1 (hv := hv) (nd := fun i => (if f.2 = i then [j] else []) ++ incident i fs (j + 1))
      (hs.congr (fun _ _ _ => rfl) (fun i _ _ => by simp [incident]))
    obtain ⟨s2, e2, h2⟩ := pushSide f.2 j hf.2 (nd := fun i => incident i fs (j + 1)) h1
    obtain ⟨s', e', h'⟩ := ih (fun p hp => h p (by simp [hp])) (j + 1) s2 _ h2
    refine ⟨s', by simp only [fillCells, if_pos hf, e1, e2, e'], h'.congr (fun i _ _ => ?_) (fun _ _ _ => rfl)⟩
    simp [incident]

theorem incident_eq_filter (i : Nat) (fs : List (Nat × Nat)) (hd : ∀ p ∈ fs, p.1 ≠ p.2) (j : Nat) :
    incident i fs j = ((List.range fs.length).filter fun q => (fs[q]?).any fun p => p.1 == i || p.2 == i).map (· + j) := by
  induction fs generalizing j with
  | nil => rfl
  | cons f fs ih =>
    have hf := hd f (by simp)
    rw [incident, ih (fun p hp => hd p (by simp [hp]))]
    simp only [List.length_cons, List.range_succ_eq_map, List.filter_cons, List.getElem?_cons_zero, Option.any_some, List.filter_map]
    have hm : ∀ l : List Nat, (l.map Nat.succ).map (· + j) = l.map (· + (j + 1)) := fun l => by
      rw [List.map_map]; apply List.map_congr_left; intro x _; simp; omega
    by_cases h1 : f.1 = i <;> by_cases h2 : f.2 = i
    · exact absurd (h1.trans h2.symm) hf
    all_goals simp [h1, h2, Function.comp_def, Nat.add_assoc, Nat.add_comm 1 j]

/-- **C56.** For every list of faces between two different existing cells, the counting, allocation and filling passes never leave their arrays.  A non-ghost cell has
exactly the faces that have it on one side, in increasing order, each once, and its count is the number allocated.  Ghost cells have no list and count 0, and
the number of meshed cells is the number of non-ghost cells. -/
theorem C56_cell_faces_transpose (n : Nat) (reg : Nat → Nat) (faces : List (Nat × Nat)) (hfaces : ∀ p ∈ faces, p.1 < n ∧ p.2 < n)
    (hd : ∀ p ∈ faces, p.1 ≠ p.2) :
    ∃ cf k m, cellFaces n reg faces = some (cf, k, m) ∧
      (∀ i, i < n → reg i ≠ 0 → ∃ l, cf i = some l ∧ l.cap = k i ∧
        (List.range (k i)).map l.cells = (List.range faces.length).filter fun j => (faces[j]?).any fun p => p.1 == i || p.2 == i) ∧
      (∀ i, i < n → reg i = 0 → cf i = none ∧ k i = 0) ∧ m = ((Finset.range n).filter fun i => reg i ≠ 0).card := by
  obtain ⟨k0, e0, hk0⟩ := countCellFaces_spec n reg faces hfaces 0 fun _ => 0
  obtain ⟨h1, h2, h3⟩ := allocCells_spec reg k0 n
  obtain ⟨s, e, hs⟩ := fillCells_spec faces hfaces 0 ((allocCells reg k0 n).1, (allocCells reg k0 n).2.1) (fun _ => [])
    (reg := reg) (n := n) ⟨fun i hi hr => ⟨{ cap := k0 i, cells := fun _ => 0 }, by simp only [h1]; rw [if_pos ⟨hi, hr⟩], by simp [hk0, hr], by simp only [h2]; rw [if_pos ⟨hi, hr⟩]; rfl,
        by simp only [h2]; rw [if_pos ⟨hi, hr⟩]; rfl⟩,
      fun i hi hr => ⟨by simp only [h1]; rw [if_neg (by simp [hr])], by simp only [h2]; rw [if_neg (by simp [hr]), hk0]; simp [hr]⟩⟩
  refine ⟨s.1, s.2, _, by simp only [cellFaces, e0, e]; rfl, fun i hi hr => ?_, hs.ghosts, h3⟩
  obtain ⟨l, a, b, c, d⟩ := hs.lists i hi hr
  simp only [List.nil_append] at b c d
  refine ⟨l, a, by simpa [c] using b, ?_⟩
  rw [d, incident_eq_filter i faces hd 0]
  simp

-- non-vacuity: three cells, one of them a ghost, three faces
example : (cellFaces 3 (fun i => i) [(1, 2), (0, 1), (2, 0)]).map (fun r => ((List.range 3).map fun i => (r.1 i).map fun l => (List.range (r.2.1 i)).map l.cells, r.2.2)) =
    some ([none, some [0, 1], some [0, 2]], 2) := by decide +kernel

end VoroCrust
