import Verif.Model.TreeFile
import Verif.Props.Text
import Mathlib.Data.List.Forall2
import Mathlib.Tactic.NormNum
import Mathlib.Tactic.Linarith
import Mathlib.Tactic.Ring
import Mathlib.Algebra.Order.Round
import Mathlib.Data.Rat.Floor

/-!
# C90: files of tree points; C91: attributes of tree points
-/

namespace VoroCrust

/-! ## Tokens of a line made of comma-free pieces -/

theorem joinWith_cons (sep : Char) (t : Tok) (ts : List Tok) (h : ts ≠ []) : joinWith sep (t :: ts) = t ++ sep :: joinWith sep ts := by
  cases ts with
  | nil => exact absurd rfl h
  | cons a l => rfl

/-- A line determines its comma-free pieces. -/
theorem joinWith_inj (sep : Char) (ts us : List Tok) (ht : ∀ t ∈ ts, sep ∉ t) (hu : ∀ t ∈ us, sep ∉ t) (hl : ts.length = us.length)
    (he : joinWith sep ts = joinWith sep us) : ts = us := by
  induction ts generalizing us with
  | nil => exact (List.length_eq_zero_iff.mp hl.symm).symm
  | cons a ts ih =>
    cases us with
    | nil => simp at hl
    | cons b us =>
      have hl' : ts.length = us.length := by simpa using hl
      by_cases hts : ts = []
      · have hus : us = [] := List.length_eq_zero_iff.mp (by rw [← hl', hts]; rfl)
        subst hts hus
        simpa [joinWith] using he
      · have hus : us ≠ [] := fun h => hts (List.length_eq_zero_iff.mp (by rw [hl', h]; rfl))
        rw [joinWith_cons sep a ts hts, joinWith_cons sep b us hus] at he
        have hab : a = b ∧ joinWith sep ts = joinWith sep us := by
          have h1 : ∀ (p q : List Char) (r s : List Char), sep ∉ p → sep ∉ q → p ++ sep :: r = q ++ sep :: s → p = q ∧ r = s := by
            intro p
            induction p with
            | nil =>
              intro q r s _ hq e
              cases q with
              | nil => exact ⟨rfl, by simpa using e⟩
              | cons c q => simp only [List.nil_append, List.cons_append, List.cons.injEq] at e; exact absurd (by simp [e.1]) hq
            | cons c p ihp =>
              intro q r s hp hq e
              cases q with
              | nil => simp only [List.nil_append, List.cons_append, List.cons.injEq] at e; exact absurd (by simp [e.1]) hp
              | cons d q =>
                simp only [List.cons_append, List.cons.injEq] at e
                have := ihp q r s (fun h => hp (by simp [h])) (fun h => hq (by simp [h])) e.2
                exact ⟨by rw [e.1, this.1], this.2⟩
          exact h1 a b _ _ (ht a (by simp)) (hu b (by simp)) he
        rw [hab.1, ih us (fun t h => ht t (by simp [h])) (fun t h => hu t (by simp [h])) hl' hab.2]

theorem count_joinWith (sep : Char) (ts : List Tok) (ht : ∀ t ∈ ts, sep ∉ t) (h : ts ≠ []) : (joinWith sep ts).count sep + 1 = ts.length := by
  induction ts with
  | nil => exact absurd rfl h
  | cons a ts ih =>
    have ha : a.count sep = 0 := List.count_eq_zero.mpr (ht a (by simp))
    by_cases hts : ts = []
    · subst hts; simp [joinWith, ha]
    · rw [joinWith_cons sep a ts hts, List.count_append, ha, List.count_cons_self, List.length_cons]
      have := ih (fun t h => ht t (by simp [h])) hts
      omega

theorem getTokens_join (sep : Char) (ts : List Tok) (ht : ∀ t ∈ ts, sep ∉ t) (h : ts ≠ []) : getTokens (joinWith sep ts) sep = some ts := by
  obtain ⟨us, e, hl, hu, hj⟩ := C12_tokens_lossless (joinWith sep ts) sep
  rw [e, joinWith_inj sep us ts hu ht (by rw [hl, count_joinWith sep ts ht h]) hj]

/-! ## C90: what a file means -/

section
variable {V : Type}

/-- Row `l` of a file with `n` columns, read as a record: the first `numDim` fields are the coordinates; the next `nd`
the direction, if there are that many columns (zeros otherwise); the columns left over are the attributes, of which the
first tells how many are kept. -/
def RowMeans (parse : Tok → V) (parseN : Tok → Nat) (zero : V) (nd numDim n : Nat) (l : List Char) (r : PointRec V) : Prop :=
  (r.coords.length = numDim ∧ ∀ i < numDim, ∃ t, field l i = some t ∧ r.coords[i]? = some (parse t)) ∧
  (if numDim + nd ≤ n then
    ∃ ns, r.normal = some ns ∧ ns.length = nd ∧ ∀ i < nd, ∃ t, field l (numDim + i) = some t ∧ ns[i]? = some (parse t)
   else r.normal = some (List.replicate nd zero)) ∧
  (if numDim + nd < n then
    ∃ a, r.attrib = some a ∧ numDim + nd + a.length ≤ n ∧ (∀ i < n, (field l i).isSome) ∧
      (∃ t, field l (numDim + nd) = some t ∧ parseN t = a.length) ∧
      ∀ i < a.length, ∃ t, field l (numDim + nd + i) = some t ∧ a[i]? = some (parseN t)
   else r.attrib = none)

theorem readN_some {α : Type} {l : List α} {n : Nat} {r : List α} : readN l n = some r ↔ n ≤ l.length ∧ r = l.take n := by
  unfold readN
  by_cases h : n ≤ l.length
  · rw [if_pos h]; simp only [Option.some.injEq]; exact ⟨fun e => ⟨h, e.symm⟩, fun e => e.2.symm⟩
  · rw [if_neg h]; simp only [reduceCtorEq, false_iff]; exact fun e => h e.1

theorem ext_take {α β : Type} (f : α → β) (t : List α) (k m : Nat) (l : List β) (hl : l.length = m) (hk : k + m ≤ t.length)
    (h : ∀ i < m, ∃ x, t[k + i]? = some x ∧ l[i]? = some (f x)) : l = ((t.drop k).take m).map f := by
  refine List.ext_getElem? fun i => ?_
  by_cases hi : i < m
  · obtain ⟨x, e1, e2⟩ := h i hi
    rw [e2, List.getElem?_map, List.getElem?_take_of_lt hi, List.getElem?_drop, e1]; rfl
  · rw [List.getElem?_eq_none (by omega), List.getElem?_eq_none (by simp; omega)]

theorem take_ext {α β : Type} (f : α → β) (t : List α) (k m : Nat) (hk : k + m ≤ t.length) (i : Nat) (hi : i < m) :
    ∃ x, t[k + i]? = some x ∧ (((t.drop k).take m).map f)[i]? = some (f x) := by
  refine ⟨t[k + i]'(by omega), List.getElem?_eq_getElem _, ?_⟩
  rw [List.getElem?_map, List.getElem?_take_of_lt hi, List.getElem?_drop, List.getElem?_eq_getElem (by omega)]; rfl

/-- One row: defined exactly when it means a record, which is then appended. -/
theorem loadRow_iff (parse : Tok → V) (parseN : Tok → Nat) (zero : V) (nd numDim n : Nat) (hnd : nd ≤ numDim) (l : List Char) (t : List Tok)
    (ht : getTokens l ',' = some t) (recs out : List (PointRec V)) :
    loadRow parse parseN zero nd numDim n t recs = some out ↔
      ∃ r, RowMeans parse parseN zero nd numDim n l r ∧ out = recs ++ [r] := by
  have hf : ∀ i, field l i = t[i]? := fun i => by unfold field; rw [ht]; rfl
  unfold RowMeans loadRow
  simp only [hf]
  constructor
  · intro h
    by_cases h1 : numDim ≤ t.length
    swap
    · simp [readN, h1] at h
    have e1 : readN t numDim = some (t.take numDim) := readN_some.mpr ⟨h1, rfl⟩
    simp only [e1] at h
    have c1 : (List.map parse (t.take numDim)).length = numDim ∧
        ∀ i < numDim, ∃ x, t[i]? = some x ∧ (List.map parse (t.take numDim))[i]? = some (parse x) := by
      refine ⟨by simp [h1], fun i hi => ?_⟩
      have := take_ext parse t 0 numDim (by omega) i hi
      simpa using this
    by_cases h2 : numDim + nd ≤ n
    · simp only [if_pos h2] at h ⊢
      by_cases h3 : nd ≤ (t.drop numDim).length
      swap
      · rw [readN, if_neg h3] at h; simp at h
      have e2 : readN (t.drop numDim) nd = some ((t.drop numDim).take nd) := readN_some.mpr ⟨h3, rfl⟩
      have h3' : numDim + nd ≤ t.length := by simp at h3; omega
      simp only [e2, Option.map_some] at h
      have c2 := fun i (hi : i < nd) => take_ext parse t numDim nd h3' i hi
      by_cases h4 : numDim + nd < n
      · simp only [if_pos h4] at h ⊢
        by_cases h5 : n - numDim - nd ≤ (t.drop (numDim + nd)).length
        swap
        · rw [readN, if_neg h5] at h; simp at h
        have e3 : readN (t.drop (numDim + nd)) (n - numDim - nd) = some ((t.drop (numDim + nd)).take (n - numDim - nd)) := readN_some.mpr ⟨h5, rfl⟩
        have h5' : n ≤ t.length := by simp at h5; omega
        simp only [e3, Option.map_some] at h
        unfold addRecord at h
        rw [if_neg (by omega), readN_some.mpr ⟨by simp [h1], rfl⟩] at h
        simp only [storedNormal] at h
        rw [readN_some.mpr ⟨by simp; omega, rfl⟩] at h
        simp only [storedAttrib] at h
        obtain ⟨x0, e0, e0'⟩ := take_ext parseN t (numDim + nd) (n - numDim - nd) (by omega) 0 (by omega)
        rw [e0'] at h
        simp only at h
        by_cases h6 : parseN x0 ≤ n - numDim - nd
        swap
        · rw [readN, if_neg (by simp; omega)] at h; simp at h
        rw [readN_some.mpr ⟨by simp; omega, rfl⟩] at h
        simp only [Option.map_some, Option.some.injEq] at h
        refine ⟨_, ⟨?_, ⟨_, rfl, ?_, ?_⟩, ⟨_, rfl, ?_, ?_, ?_, ?_⟩⟩, h.symm⟩
        · have : List.take numDim (List.map parse (List.take numDim t)) = List.map parse (t.take numDim) := by
            rw [← List.map_take, List.take_take, Nat.min_self]
          simp only [this]; exact c1
        · simp; omega
        · intro i hi
          obtain ⟨x, g1, g2⟩ := c2 i hi
          refine ⟨x, g1, ?_⟩
          rw [← List.map_take, List.take_take, Nat.min_self]; exact g2
        · simp; omega
        · intro i hi
          rw [List.getElem?_eq_getElem (by omega)]; rfl
        · refine ⟨x0, by simpa using e0, ?_⟩
          simp; omega
        · intro i hi
          have hi' : i < parseN x0 := by simp at hi; omega
          obtain ⟨x, g1, g2⟩ := take_ext parseN t (numDim + nd) (n - numDim - nd) (by omega) i (by omega)
          exact ⟨x, g1, by rw [List.getElem?_take_of_lt hi']; exact g2⟩
      · simp only [if_neg h4] at h ⊢
        unfold addRecord at h
        rw [if_neg (by omega), readN_some.mpr ⟨by simp [h1], rfl⟩] at h
        simp only [storedNormal, Option.map_some] at h
        rw [readN_some.mpr ⟨by simp; omega, rfl⟩] at h
        simp only [storedAttrib, Option.map_none, Option.some.injEq] at h
        refine ⟨_, ⟨?_, ⟨_, rfl, ?_, ?_⟩, rfl⟩, h.symm⟩
        · have : List.take numDim (List.map parse (List.take numDim t)) = List.map parse (t.take numDim) := by
            rw [← List.map_take, List.take_take, Nat.min_self]
          simp only [this]; exact c1
        · simp; omega
        · intro i hi
          obtain ⟨x, g1, g2⟩ := c2 i hi
          refine ⟨x, g1, ?_⟩
          rw [← List.map_take, List.take_take, Nat.min_self]; exact g2
    · have h4 : ¬ numDim + nd < n := by omega
      simp only [if_neg h2, if_neg h4] at h ⊢
      unfold addRecord at h
      rw [if_neg (by omega), readN_some.mpr ⟨by simp [h1], rfl⟩] at h
      simp only [storedNormal, Option.map_none, storedAttrib, Option.some.injEq] at h
      refine ⟨_, ⟨?_, rfl, rfl⟩, h.symm⟩
      have : List.take numDim (List.map parse (List.take numDim t)) = List.map parse (t.take numDim) := by
        rw [← List.map_take, List.take_take, Nat.min_self]
      simp only [this]; exact c1
  · rintro ⟨r, ⟨⟨hc, hc'⟩, hn, ha⟩, rfl⟩
    have h1 : numDim ≤ t.length := by
      by_contra hlt
      obtain ⟨x, e, _⟩ := hc' t.length (by omega)
      simp at e
    have hcoords : r.coords = List.map parse (t.take numDim) := by
      have := ext_take parse t 0 numDim r.coords hc (by omega) (by simpa using hc')
      simpa using this
    rw [readN_some.mpr ⟨h1, rfl⟩]
    simp only
    have hT : List.take numDim (List.map parse (List.take numDim t)) = List.map parse (t.take numDim) := by
      rw [← List.map_take, List.take_take, Nat.min_self]
    by_cases h2 : numDim + nd ≤ n
    · simp only [if_pos h2] at hn ⊢
      obtain ⟨ns, en, hnl, hn'⟩ := hn
      have h3 : numDim + nd ≤ t.length := by
        by_contra hlt
        obtain ⟨x, e, _⟩ := hn' (t.length - numDim) (by omega)
        rw [List.getElem?_eq_none (by omega)] at e; simp at e
      have hns := ext_take parse t numDim nd ns hnl h3 hn'
      rw [readN_some.mpr ⟨by simp; omega, rfl⟩]
      simp only [Option.map_some]
      have hT2 : List.take nd (List.map parse (List.take nd (List.drop numDim t))) = List.map parse ((t.drop numDim).take nd) := by
        rw [← List.map_take, List.take_take, Nat.min_self]
      by_cases h4 : numDim + nd < n
      · simp only [if_pos h4] at ha ⊢
        obtain ⟨a, ea, hle, hall, ⟨x0, g0, g1⟩, ha'⟩ := ha
        have h5 : n ≤ t.length := by
          by_contra hlt
          have := hall t.length (by omega)
          simp at this
        rw [readN_some.mpr ⟨by simp; omega, rfl⟩]
        simp only [Option.map_some]
        unfold addRecord
        rw [if_neg (by omega), readN_some.mpr ⟨by simp [h1], rfl⟩]
        simp only [storedNormal]
        rw [readN_some.mpr ⟨by simp; omega, rfl⟩]
        simp only [storedAttrib]
        obtain ⟨x1, k1, k2⟩ := take_ext parseN t (numDim + nd) (n - numDim - nd) (by omega) 0 (by omega)
        have hx : x1 = x0 := by rw [Nat.add_zero, g0] at k1; exact (Option.some.inj k1).symm
        rw [k2, hx, g1]
        simp only
        rw [readN_some.mpr ⟨by simp; omega, rfl⟩]
        simp only [Option.map_some, Option.some.injEq, List.append_cancel_left_eq, List.cons.injEq, and_true]
        have hA := ext_take parseN t (numDim + nd) a.length a rfl (by omega) ha'
        have hT3 : List.take a.length (List.map parseN (List.take (n - numDim - nd) (List.drop (numDim + nd) t))) = a := by
          rw [← List.map_take, List.take_take, Nat.min_eq_left (by omega)]; exact hA.symm
        rw [hT, hT2, hT3, ← hcoords, ← hns, ← en, ← ea]
      · simp only [if_neg h4] at ha ⊢
        unfold addRecord
        rw [if_neg (by omega), readN_some.mpr ⟨by simp [h1], rfl⟩]
        simp only [storedNormal, Option.map_some]
        rw [readN_some.mpr ⟨by simp; omega, rfl⟩]
        simp only [storedAttrib, Option.map_none, Option.some.injEq, List.append_cancel_left_eq, List.cons.injEq, and_true]
        rw [hT, hT2, ← hcoords, ← hns, ← en, ← ha]
    · have h4 : ¬ numDim + nd < n := by omega
      simp only [if_neg h2, if_neg h4] at hn ha ⊢
      unfold addRecord
      rw [if_neg (by omega), readN_some.mpr ⟨by simp [h1], rfl⟩]
      simp only [storedNormal, Option.map_none, storedAttrib, Option.some.injEq, List.append_cancel_left_eq, List.cons.injEq, and_true]
      rw [hT, ← hcoords, ← hn, ← ha]

theorem loadRows_iff (parse : Tok → V) (parseN : Tok → Nat) (zero : V) (nd numDim n : Nat) (hnd : nd ≤ numDim) (ls : List (List Char))
    (recs out : List (PointRec V)) :
    loadRows parse parseN zero nd numDim n ls recs = some out ↔
      ∃ news, List.Forall₂ (RowMeans parse parseN zero nd numDim n) ls news ∧ out = recs ++ news := by
  induction ls generalizing recs with
  | nil =>
    simp only [loadRows, Option.some.injEq, List.forall₂_nil_left_iff, exists_eq_left, List.append_nil]
    exact eq_comm
  | cons l ls ih =>
    obtain ⟨t, ht, hne⟩ := getTokens_isSome l ','
    simp only [loadRows, ht]
    rw [if_neg (fun h => hne (List.length_eq_zero_iff.mp h))]
    constructor
    · intro h
      cases e : loadRow parse parseN zero nd numDim n t recs with
      | none => rw [e] at h; simp at h
      | some mid =>
        rw [e] at h
        obtain ⟨r, hr, hmid⟩ := (loadRow_iff parse parseN zero nd numDim n hnd l t ht recs mid).mp e
        obtain ⟨news, hnews, hout⟩ := (ih mid).mp h
        exact ⟨r :: news, List.Forall₂.cons hr hnews, by rw [hout, hmid]; simp⟩
    · rintro ⟨news, hnews, hout⟩
      cases hnews with
      | @cons _ r _ news' hr hrest =>
        rw [(loadRow_iff parse parseN zero nd numDim n hnd l t ht recs (recs ++ [r])).mpr ⟨r, hr, rfl⟩]
        exact (ih _).mpr ⟨news', hrest, by rw [hout]; simp⟩

/-- **C90, reading.** A file of points is read without undefined behaviour exactly when every line after the first
means a record; the records are then appended in the order of the lines. -/
theorem C90_read_file (parse : Tok → V) (parseN : Tok → Nat) (zero : V) (nd numDim : Nat) (hnd : nd ≤ numDim) (h : List Char) (ls : List (List Char))
    (file : List Char) (hfile : fileLines file = h :: ls) (recs out : List (PointRec V)) :
    loadTree parse parseN zero nd numDim file recs = some out ↔
      ∃ news, List.Forall₂ (RowMeans parse parseN zero nd numDim (h.count ',' + 1)) ls news ∧ out = recs ++ news := by
  unfold loadTree
  obtain ⟨t, ht, hl, _⟩ := C12_tokens_lossless h ','
  rw [hfile]
  simp only [ht]
  rw [hl]
  exact loadRows_iff parse parseN zero nd numDim _ hnd ls recs out

end

/-! ## C90: writing and reading back -/

section
variable {V : Type}

/-- What is used of printing and parsing: no printed number has a comma or a new line in it, counts are read back as
printed, also after a space, `0.0` is read as zero; a printed real number is read back as `rd v` (the number cut to 16
digits). -/
structure Printing (showV : V → List Char) (showN : Nat → List Char) (parse : Tok → V) (parseN : Tok → Nat) (zero : V) (rd : V → V) : Prop where
  commaV : ∀ v, ',' ∉ showV v
  commaN : ∀ n, ',' ∉ showN n
  lineV : ∀ v, '\n' ∉ showV v
  lineN : ∀ n, '\n' ∉ showN n
  first : ∀ v, parse (showV v) = rd v
  later : ∀ v, parse (' ' :: showV v) = rd v
  count : ∀ n, parseN (' ' :: showN n) = n
  zero : parse " 0.0".toList = zero

/-- The number of attributes of a record, the count included. -/
def attribCount (r : PointRec V) : Nat := (r.attrib.map List.length).getD 0

/-- A record as `add_tree_point` leaves it: enough coordinates and direction entries, entry 0 of the attributes is their
number. -/
def GoodRec (nd numDim : Nat) (r : PointRec V) : Prop :=
  numDim ≤ r.coords.length ∧ (∀ n, r.normal = some n → nd ≤ n.length) ∧ ∀ a, r.attrib = some a → a[0]? = some a.length

/-- A record after writing and reading: numbers printed and parsed, a missing direction replaced by zeros, attributes
kept if `keep`. -/
def readBack (zero : V) (rd : V → V) (nd numDim : Nat) (keep : Bool) (r : PointRec V) : PointRec V where
  coords := (r.coords.take numDim).map rd
  normal := some (match r.normal with
    | none => List.replicate nd zero
    | some n => (n.take nd).map rd)
  attrib := if keep then r.attrib else none

theorem join_sepAll {α : Type} (shw : α → List Char) (l : List α) (ts : List Tok) (h : ts ≠ []) :
    joinWith ',' ts ++ sepAll shw l = joinWith ',' (ts ++ l.map (fun v => ' ' :: shw v)) := by
  have h1 : ∀ (t : Tok) (ts us : List Tok), us ≠ [] → joinWith ',' (t :: ts ++ us) = joinWith ',' (t :: ts) ++ ',' :: joinWith ',' us := by
    intro t ts
    induction ts generalizing t with
    | nil => intro us hu; rw [List.cons_append, List.nil_append, joinWith_cons _ _ _ hu]; rfl
    | cons b ts ih =>
      intro us hu
      rw [List.cons_append, joinWith_cons _ _ _ (by simp), ih b us hu, joinWith_cons _ t _ (by simp)]; simp
  obtain ⟨t, ts', rfl⟩ : ∃ t ts', ts = t :: ts' := by
    cases ts with
    | nil => exact absurd rfl h
    | cons a l => exact ⟨a, l, rfl⟩
  induction l generalizing t ts' with
  | nil => simp [sepAll]
  | cons v l ih =>
    have e := ih t (ts' ++ [' ' :: shw v]) (by simp)
    simp only [sepAll, List.map_cons]
    have e2 : joinWith ',' (t :: (ts' ++ [' ' :: shw v])) = joinWith ',' (t :: ts') ++ ',' :: ' ' :: shw v := by
      have := h1 t ts' [' ' :: shw v] (by simp)
      simpa [joinWith] using this
    rw [e2] at e
    simpa using e

/-- The pieces of a row. -/
def rowPieces (showV : V → List Char) (showN : Nat → List Char) (nd numDim : Nat) (r : PointRec V) : List Tok × List Tok × List Tok :=
  ((match r.coords with
    | [] => []
    | c :: cs => showV c :: (cs.take (numDim - 1)).map (fun v => ' ' :: showV v)),
   (match r.normal with
    | none => (List.range nd).map (fun _ => ' ' :: "0.0".toList)
    | some n => (n.take nd).map (fun v => ' ' :: showV v)),
   (match r.attrib with
    | none => []
    | some a => a.map (fun v => ' ' :: showN v)))

theorem mem_space {c : Char} {l : List Char} (hc : c ≠ ' ') (h : c ∉ l) : c ∉ ' ' :: l := by simp [hc, h]

theorem saveRow_spec {showV : V → List Char} {showN : Nat → List Char} {parse : Tok → V} {parseN : Tok → Nat} {zero : V} {rd : V → V}
    (P : Printing showV showN parse parseN zero rd) (nd numDim : Nat) (h1 : 1 ≤ numDim) (r : PointRec V) (hr : GoodRec nd numDim r) :
    ∃ A B C, rowPieces showV showN nd numDim r = (A, B, C) ∧ saveRow showV showN nd numDim r = some (joinWith ',' (A ++ B ++ C)) ∧
      A.length = numDim ∧ B.length = nd ∧ C.length = attribCount r ∧ A.map parse = (r.coords.take numDim).map rd ∧
      some (B.map parse) = (readBack zero rd nd numDim true r).normal ∧ C.map parseN = r.attrib.getD [] ∧
      (∀ t ∈ A ++ B ++ C, ',' ∉ t) ∧ (∀ t ∈ A ++ B ++ C, '\n' ∉ t) ∧ A ≠ [] := by
  obtain ⟨g1, g2, g3⟩ := hr
  obtain ⟨coords, normal, attrib⟩ := r
  cases coords with
  | nil => simp at g1; omega
  | cons c cs =>
  have hcs : readN cs (numDim - 1) = some (cs.take (numDim - 1)) := readN_some.mpr ⟨by simp at g1; omega, rfl⟩
  have hlen : numDim - 1 ≤ cs.length := by simp at g1; omega
  have hS : showV c ++ sepAll showV (cs.take (numDim - 1)) = joinWith ',' (showV c :: (cs.take (numDim - 1)).map (fun v => ' ' :: showV v)) :=
    join_sepAll showV (cs.take (numDim - 1)) [showV c] (by simp)
  refine ⟨_, _, _, rfl, ?_, ?_, ?_, ?_, ?_, ?_, ?_, ?_, ?_, ?_⟩
  · have hN : ∃ n, normalText showV nd normal = some n ∧ ∀ ts, ts ≠ [] →
        joinWith ',' ts ++ n = joinWith ',' (ts ++ (rowPieces showV showN nd numDim ⟨c :: cs, normal, attrib⟩).2.1) := by
      cases normal with
      | none => exact ⟨_, rfl, fun ts h => join_sepAll (fun _ => "0.0".toList) (List.range nd) ts h⟩
      | some n =>
        refine ⟨_, ?_, fun ts h => join_sepAll showV (n.take nd) ts h⟩
        simp only [normalText]
        rw [readN_some.mpr ⟨g2 n rfl, rfl⟩]; rfl
    have hA : ∃ n, attribText showN attrib = some n ∧ ∀ ts, ts ≠ [] →
        joinWith ',' ts ++ n = joinWith ',' (ts ++ (rowPieces showV showN nd numDim ⟨c :: cs, normal, attrib⟩).2.2) := by
      cases attrib with
      | none => exact ⟨_, rfl, fun ts _ => by simp [rowPieces]⟩
      | some a =>
        refine ⟨_, ?_, fun ts h => join_sepAll showN a ts h⟩
        simp only [attribText]
        rw [g3 a rfl]
        simp only
        rw [readN_some.mpr ⟨le_refl _, rfl⟩, List.take_length]; rfl
    obtain ⟨n, en, hn⟩ := hN
    obtain ⟨a, ea, ha⟩ := hA
    simp only [saveRow, hcs, en, ea]
    rw [hS, hn _ (by simp), ha _ (by simp)]
    rfl
  · simp only [List.length_cons, List.length_map, List.length_take]; omega
  · cases normal with
    | none => simp
    | some n => have := g2 n rfl; simp; omega
  · cases attrib with
    | none => rfl
    | some a => simp [attribCount]
  · obtain ⟨m, rfl⟩ : ∃ m, numDim = m + 1 := ⟨numDim - 1, by omega⟩
    simp only [List.map_cons, P.first, List.take_succ_cons, Nat.add_sub_cancel, List.map_map]
    congr 1
    exact List.map_congr_left fun v _ => P.later v
  · cases normal with
    | none =>
      have hz : parse (' ' :: "0.0".toList) = zero := P.zero
      simp only [readBack, List.map_map, Option.some.injEq]
      rw [List.eq_replicate_iff]
      refine ⟨by simp, fun b hb => ?_⟩
      obtain ⟨_, _, e⟩ := List.mem_map.mp hb
      rw [← e]; exact hz
    | some n =>
      simp only [readBack, List.map_map, Option.some.injEq]
      exact List.map_congr_left fun v _ => P.later v
  · cases attrib with
    | none => rfl
    | some a =>
      simp only [List.map_map, Option.getD_some]
      conv_rhs => rw [← List.map_id a]
      exact List.map_congr_left fun v _ => P.count v
  · intro t ht
    simp only [List.mem_append, List.mem_cons, List.mem_map] at ht
    rcases ht with ((rfl | ⟨v, _, rfl⟩) | ht) | ht
    · exact P.commaV c
    · exact mem_space (by decide) (P.commaV v)
    · cases normal with
      | none => obtain ⟨_, _, rfl⟩ := List.mem_map.mp ht; decide
      | some n => obtain ⟨v, _, rfl⟩ := List.mem_map.mp ht; exact mem_space (by decide) (P.commaV v)
    · cases attrib with
      | none => simp at ht
      | some a => obtain ⟨v, _, rfl⟩ := List.mem_map.mp ht; exact mem_space (by decide) (P.commaN v)
  · intro t ht
    simp only [List.mem_append, List.mem_cons, List.mem_map] at ht
    rcases ht with ((rfl | ⟨v, _, rfl⟩) | ht) | ht
    · exact P.lineV c
    · exact mem_space (by decide) (P.lineV v)
    · cases normal with
      | none => obtain ⟨_, _, rfl⟩ := List.mem_map.mp ht; decide
      | some n => obtain ⟨v, _, rfl⟩ := List.mem_map.mp ht; exact mem_space (by decide) (P.lineV v)
    · cases attrib with
      | none => simp at ht
      | some a => obtain ⟨v, _, rfl⟩ := List.mem_map.mp ht; exact mem_space (by decide) (P.lineN v)
  · simp

theorem join_line (ts : List Tok) (h : ∀ t ∈ ts, '\n' ∉ t) : '\n' ∉ joinWith ',' ts := by
  induction ts with
  | nil => simp [joinWith]
  | cons t ts ih =>
    by_cases hts : ts = []
    · subst hts; exact h t (by simp)
    · rw [joinWith_cons _ _ _ hts]
      have := ih (fun u hu => h u (by simp [hu]))
      simp [h t (by simp), this]

/-- One row read back: with `K` attribute columns. -/
theorem loadRow_saved {parse : Tok → V} {parseN : Tok → Nat} {zero : V} {rd : V → V} (nd numDim K : Nat) (hnd : nd ≤ numDim) (r : PointRec V)
    (hr : GoodRec nd numDim r) (A B C : List Tok)
    (hA : A.length = numDim) (hB : B.length = nd) (hC : C.length = attribCount r) (mA : A.map parse = (r.coords.take numDim).map rd)
    (mB : some (B.map parse) = (readBack zero rd nd numDim true r).normal) (mC : C.map parseN = r.attrib.getD []) (recs : List (PointRec V)) :
    loadRow parse parseN zero nd numDim (numDim + nd + K) (A ++ B ++ C) recs =
      if K = 0 then some (recs ++ [readBack zero rd nd numDim false r])
      else if attribCount r = K then some (recs ++ [readBack zero rd nd numDim true r]) else none := by
  have t1 : readN (A ++ B ++ C) numDim = some A := by
    refine readN_some.mpr ⟨by simp; omega, ?_⟩
    rw [List.append_assoc, List.take_left' hA]
  have t2 : readN ((A ++ B ++ C).drop numDim) nd = some B := by
    rw [List.append_assoc, List.drop_left' hA]
    exact readN_some.mpr ⟨by simp; omega, by rw [List.take_left' hB]⟩
  have t3 : (A ++ B ++ C).drop (numDim + nd) = C := List.drop_left' (by simp [hA, hB])
  have n1 : readN (A.map parse) numDim = some ((r.coords.take numDim).map rd) := by
    have e : (A.map parse).take numDim = A.map parse := List.take_of_length_le (by simp [hA])
    exact readN_some.mpr ⟨by simp [hA], by rw [e, mA]⟩
  have n2 : storedNormal nd zero (some (B.map parse)) = some (B.map parse) := by
    simp only [storedNormal]
    exact readN_some.mpr ⟨by simp [hB], by rw [List.take_of_length_le (by simp [hB])]⟩
  have n3 : some (B.map parse) = (readBack zero rd nd numDim false r).normal := mB
  unfold loadRow
  rw [t1]
  simp only
  rw [if_pos (by omega), t2]
  simp only [Option.map_some]
  by_cases hK : K = 0
  · subst hK
    rw [if_neg (by omega), if_pos rfl]
    simp only [Option.map_none]
    unfold addRecord
    rw [if_neg (by omega), n1, n2]
    simp only [storedAttrib, n3]
    rfl
  · rw [if_pos (by omega), if_neg hK, t3, show numDim + nd + K - numDim - nd = K by omega]
    by_cases hk : attribCount r = K
    · rw [if_pos hk, readN_some.mpr ⟨by omega, rfl⟩]
      simp only [Option.map_some]
      rw [List.take_of_length_le (by omega), mC]
      obtain ⟨a, ea⟩ : ∃ a, r.attrib = some a := by
        cases h : r.attrib with
        | none => simp [attribCount, h] at hk; omega
        | some a => exact ⟨a, rfl⟩
      unfold addRecord
      rw [if_neg (by omega), n1, n2]
      simp only [storedAttrib, ea, Option.getD_some, hr.2.2 a ea]
      rw [readN_some.mpr ⟨le_refl _, rfl⟩, List.take_length]
      simp only [Option.map_some, mB]
      simp only [readBack, ea, if_true]
    · rw [if_neg hk]
      by_cases hlt : K ≤ C.length
      · rw [readN_some.mpr ⟨hlt, rfl⟩]
        simp only [Option.map_some]
        unfold addRecord
        rw [if_neg (by omega), n1, n2]
        obtain ⟨a, ea⟩ : ∃ a, r.attrib = some a := by
          cases h : r.attrib with
          | none =>
            have : attribCount r = 0 := by simp [attribCount, h]
            omega
          | some a => exact ⟨a, rfl⟩
        have hCa : C.length = a.length := by rw [hC]; simp [attribCount, ea]
        simp only [storedAttrib]
        have e5 : List.map parseN (List.take K C) = a.take K := by rw [List.map_take, mC, ea, Option.getD_some]
        rw [e5, List.getElem?_take_of_lt (by omega), hr.2.2 a ea]
        simp only
        rw [readN, if_neg (by simp; omega)]
        rfl
      · rw [readN, if_neg hlt]
        rfl

theorem headerLine_spec {showN : Nat → List Char} (hc : ∀ n, ',' ∉ showN n) (hl : ∀ n, '\n' ∉ showN n) (nd numDim : Nat) (h1 : 1 ≤ numDim)
    (recs : List (PointRec V)) (hr : ∀ r ∈ recs, GoodRec nd numDim r) :
    ∃ h, headerLine showN nd numDim recs = some h ∧ '\n' ∉ h ∧ h.count ',' + 1 = numDim + nd + (recs.head?.map attribCount).getD 0 := by
  have cnt : ∀ (f : Nat → List Char), (∀ i, ',' ∉ f i) → ∀ l, (sepAll f l).count ',' = l.length := by
    intro f hf l
    induction l with
    | nil => rfl
    | cons a l ih =>
      simp only [sepAll, List.count_cons_self, List.count_append, List.count_eq_zero.mpr (hf a), ih, List.length_cons]
      rw [List.count_cons_of_ne (by decide), List.count_append, List.count_eq_zero.mpr (hf a), ih]; omega
  have nl : ∀ (f : Nat → List Char), (∀ i, '\n' ∉ f i) → ∀ l, '\n' ∉ sepAll f l := by
    intro f hf l
    induction l with
    | nil => simp [sepAll]
    | cons a l ih => simp [sepAll, hf a, ih]
  have c1 : ∀ i, ',' ∉ (fun i => 'x' :: (showN (i + 2) ++ "coord".toList)) i := by
    intro i; simp [hc]
  have c2 : ∀ i, ',' ∉ (fun i => 'n' :: showN (i + 1)) i := by intro i; simp [hc]
  have c3 : ∀ i, ',' ∉ (fun i => "attrib".toList ++ showN (i + 1)) i := by intro i; simp [hc]
  have l1 : ∀ i, '\n' ∉ (fun i => 'x' :: (showN (i + 2) ++ "coord".toList)) i := by
    intro i; simp [hl]
  have l2 : ∀ i, '\n' ∉ (fun i => 'n' :: showN (i + 1)) i := by intro i; simp [hl]
  have l3 : ∀ i, '\n' ∉ (fun i => "attrib".toList ++ showN (i + 1)) i := by intro i; simp [hl]
  have x0 : "x1coord".toList.count ',' = 0 := by decide
  have x1 : '\n' ∉ "x1coord".toList := by decide
  unfold headerLine
  cases e : recs.head?.bind PointRec.attrib with
  | none =>
    refine ⟨_, rfl, ?_, ?_⟩
    · simp only [List.mem_append, not_or]
      exact ⟨⟨x1, nl _ l1 _⟩, nl _ l2 _⟩
    · rw [List.count_append, List.count_append, x0, cnt _ c1, cnt _ c2, List.length_range, List.length_range]
      have : (recs.head?.map attribCount).getD 0 = 0 := by
        cases recs with
        | nil => rfl
        | cons r rs => 
          have e' : r.attrib = none := e
          simp [attribCount, e']
      omega
  | some a =>
    obtain ⟨r, rs, rfl, er⟩ : ∃ r rs, recs = r :: rs ∧ r.attrib = some a := by
      cases recs with
      | nil => simp at e
      | cons r rs => exact ⟨r, rs, rfl, e⟩
    have h0 := (hr r (by simp)).2.2 a er
    simp only [h0]
    refine ⟨_, rfl, ?_, ?_⟩
    · simp only [List.mem_append, not_or]
      exact ⟨⟨⟨x1, nl _ l1 _⟩, nl _ l2 _⟩, nl _ l3 _⟩
    · rw [List.count_append, List.count_append, List.count_append, x0, cnt _ c1, cnt _ c2, cnt _ c3, List.length_range, List.length_range,
        List.length_range]
      simp [attribCount, er]
      omega

/-- **C90, writing and reading back.** Any points written to a file and read into a tree are appended to it in order,
their numbers as printed; with attributes if the first point has some and all points have the same number of them,
without if the first has none, and otherwise reading is undefined. -/
theorem C90_tree_file {showV : V → List Char} {showN : Nat → List Char} {parse : Tok → V} {parseN : Tok → Nat} {zero : V} {rd : V → V}
    (P : Printing showV showN parse parseN zero rd) (nd numDim : Nat) (h1 : 1 ≤ numDim) (hnd : nd ≤ numDim) (recs old : List (PointRec V))
    (hr : ∀ r ∈ recs, GoodRec nd numDim r) :
    ∃ text, saveTree showV showN nd numDim recs = some text ∧
      let K := (recs.head?.map attribCount).getD 0
      (K = 0 → loadTree parse parseN zero nd numDim text old = some (old ++ recs.map (readBack zero rd nd numDim false))) ∧
      (K ≠ 0 → (∀ r ∈ recs, attribCount r = K) →
        loadTree parse parseN zero nd numDim text old = some (old ++ recs.map (readBack zero rd nd numDim true))) ∧
      (K ≠ 0 → (∃ r ∈ recs, attribCount r ≠ K) → loadTree parse parseN zero nd numDim text old = none) := by
  obtain ⟨h, eh, hnl, hcount⟩ := headerLine_spec P.commaN P.lineN nd numDim h1 recs hr
  have hrows : ∀ rs : List (PointRec V), (∀ r ∈ rs, GoodRec nd numDim r) →
      ∃ lines : List (List Char), saveRows showV showN nd numDim rs = some (lines.flatMap (fun l => l ++ ['\n'])) ∧ (∀ l ∈ lines, '\n' ∉ l) ∧
        ∀ K old, (K = 0 → loadRows parse parseN zero nd numDim (numDim + nd + K) lines old = some (old ++ rs.map (readBack zero rd nd numDim false))) ∧
          (K ≠ 0 → (∀ r ∈ rs, attribCount r = K) →
            loadRows parse parseN zero nd numDim (numDim + nd + K) lines old = some (old ++ rs.map (readBack zero rd nd numDim true))) ∧
          (K ≠ 0 → (∃ r ∈ rs, attribCount r ≠ K) → loadRows parse parseN zero nd numDim (numDim + nd + K) lines old = none) := by
    intro rs
    induction rs with
    | nil => intro _; exact ⟨[], rfl, by simp, fun K old => ⟨by simp [loadRows], by simp [loadRows], by simp⟩⟩
    | cons r rs ih =>
      intro hg
      obtain ⟨lines, e, hl, hload⟩ := ih (fun x hx => hg x (by simp [hx]))
      have hgr := hg r (by simp)
      obtain ⟨A, B, C, _, es, hA, hB, hC, mA, mB, mC, nc, nn, ne⟩ := saveRow_spec P nd numDim h1 r hgr
      refine ⟨joinWith ',' (A ++ B ++ C) :: lines, ?_, ?_, ?_⟩
      · simp only [saveRows, es, e]; simp
      · intro l hl'
        rcases List.mem_cons.mp hl' with rfl | hl'
        · exact join_line _ nn
        · exact hl l hl'
      · intro K old
        have hstep : loadRows parse parseN zero nd numDim (numDim + nd + K) (joinWith ',' (A ++ B ++ C) :: lines) old =
            match loadRow parse parseN zero nd numDim (numDim + nd + K) (A ++ B ++ C) old with
            | none => none
            | some recs => loadRows parse parseN zero nd numDim (numDim + nd + K) lines recs := by
          simp only [loadRows]
          rw [getTokens_join ',' (A ++ B ++ C) nc (by simp [ne])]
          simp only
          rw [if_neg (by simp [ne])]
          rfl
        rw [hstep, loadRow_saved nd numDim K hnd r hgr A B C hA hB hC mA mB mC old]
        refine ⟨fun hK => ?_, fun hK hall => ?_, fun hK hex => ?_⟩
        · rw [if_pos hK]
          simp only
          rw [(hload K _).1 hK]; simp
        · rw [if_neg hK, if_pos (hall r (by simp))]
          simp only
          rw [(hload K _).2.1 hK (fun x hx => hall x (by simp [hx]))]; simp
        · rw [if_neg hK]
          by_cases hk : attribCount r = K
          · rw [if_pos hk]
            simp only
            refine (hload K _).2.2 hK ?_
            obtain ⟨x, hx, hxk⟩ := hex
            rcases List.mem_cons.mp hx with rfl | hx
            · exact absurd hk hxk
            · exact ⟨x, hx, hxk⟩
          · rw [if_neg hk]
  obtain ⟨lines, e, hl, hload⟩ := hrows recs hr
  refine ⟨h ++ '\n' :: lines.flatMap (fun l => l ++ ['\n']), by simp only [saveTree, eh, e], ?_⟩
  have hfile : fileLines (h ++ '\n' :: lines.flatMap (fun l => l ++ ['\n'])) = h :: lines := by
    have := C13_lines (h :: lines) [] (by
      intro l hl'
      rcases List.mem_cons.mp hl' with rfl | hl'
      · exact hnl
      · exact hl l hl') (by simp)
    simpa using this
  obtain ⟨t, ht, htl, _⟩ := C12_tokens_lossless h ','
  have hL : ∀ old, loadTree parse parseN zero nd numDim (h ++ '\n' :: lines.flatMap (fun l => l ++ ['\n'])) old =
      loadRows parse parseN zero nd numDim (numDim + nd + (recs.head?.map attribCount).getD 0) lines old := by
    intro old
    unfold loadTree
    rw [hfile]
    simp only [ht]
    rw [htl, hcount]
  simp only [hL]
  exact hload _ old

/-- **C90, empty lines.** A file with an empty line after the header cannot be read: with two or more coordinates the
second one is looked up beyond the end of the tokens. -/
theorem C90_blank_line_undefined (parse : Tok → V) (parseN : Tok → Nat) (zero : V) (nd numDim : Nat) (h2 : 2 ≤ numDim) (hnd : nd ≤ numDim)
    (h : List Char) (ls : List (List Char)) (file : List Char) (hfile : fileLines file = h :: ls) (hb : [] ∈ ls) (recs : List (PointRec V)) :
    loadTree parse parseN zero nd numDim file recs = none := by
  cases e : loadTree parse parseN zero nd numDim file recs with
  | none => rfl
  | some out =>
    obtain ⟨news, hF, _⟩ := (C90_read_file parse parseN zero nd numDim hnd h ls file hfile recs out).mp e
    obtain ⟨i, hi, hl⟩ := List.mem_iff_getElem.mp hb
    have hi' : i < news.length := hF.length_eq ▸ hi
    have := (List.forall₂_iff_get.mp hF).2 i hi hi'
    simp only [List.get_eq_getElem, hl] at this
    obtain ⟨t, ht, _⟩ := this.1.2 1 (by omega)
    simp [field, getTokens, tokensLoop, findFrom, substr] at ht

end

/-- Numbers written as rows of ones: a printing that meets the conditions. -/
theorem unary_printing : Printing (V := Nat) (fun n => List.replicate n '1') (fun n => List.replicate n '1') (fun t => t.count '1')
    (fun t => t.count '1') 0 id := by
  constructor
  all_goals intros
  all_goals first
    | (intro h; have := List.eq_of_mem_replicate h; revert this; decide)
    | simp

-- non-vacuity: two sphere records with a radius and attributes
example : ∃ text, saveTree (fun n => List.replicate n '1') (fun n => List.replicate n '1') 1 2
      [(⟨[1, 2], some [3], some [2, 7]⟩ : PointRec Nat), ⟨[4, 5], none, some [2, 0]⟩] = some text ∧
    loadTree (fun t => t.count '1') (fun t => t.count '1') 0 1 2 text [] =
      some [⟨[1, 2], some [3], some [2, 7]⟩, ⟨[4, 5], some [0], some [2, 0]⟩] := by
  obtain ⟨text, e, _, h, _⟩ := C90_tree_file unary_printing 1 2 (by decide) (by decide)
    [(⟨[1, 2], some [3], some [2, 7]⟩ : PointRec Nat), ⟨[4, 5], none, some [2, 0]⟩] [] (by simp [GoodRec])
  exact ⟨text, e, by simpa [readBack, attribCount] using h⟩

-- non-vacuity: a sizing file with four columns
example : loadTree (fun t => t.count '1') (fun t => t.count '1') 0 3 4 "x,y,z,h\n1,,111,11\n".toList [] =
    some [(⟨[1, 0, 3, 2], some [0, 0, 0], none⟩ : PointRec Nat)] := by decide

/-- **C90, sixteen digits are not enough.** Two different numbers of double precision between 0.1 and 1 are printed
alike by any rounding to sixteen decimals, so not every number is read back as it was. -/
theorem C90_digits_false (dec : ℚ → ℤ) (hd : ∀ q, |(dec q : ℚ) - q * 10 ^ 16| ≤ 1 / 2) :
    ∃ m n : ℕ, m < 2 ^ 53 ∧ n < 2 ^ 53 ∧ (m : ℚ) / 2 ^ 54 ≠ n / 2 ^ 54 ∧ dec (m / 2 ^ 54) = dec (n / 2 ^ 54) := by
  refine ⟨5404319552844595, 5404319552844596, by norm_num, by norm_num, by norm_num, ?_⟩
  have key : ∀ q : ℚ, |(3000000000000000 : ℚ) - q * 10 ^ 16| < 1 / 2 → dec q = 3000000000000000 := by
    intro q hq
    have h1 := hd q
    have h2 : |((dec q - 3000000000000000 : ℤ) : ℚ)| < 1 := by
      push_cast
      calc |(dec q : ℚ) - 3000000000000000| = |((dec q : ℚ) - q * 10 ^ 16) + (q * 10 ^ 16 - 3000000000000000)| := by ring_nf
        _ ≤ |(dec q : ℚ) - q * 10 ^ 16| + |q * 10 ^ 16 - 3000000000000000| := abs_add_le _ _
        _ < 1 := by rw [abs_sub_comm (q * 10 ^ 16)]; exact lt_of_lt_of_le (add_lt_add_of_le_of_lt h1 hq) (by norm_num)
    have h3 : |dec q - 3000000000000000| < 1 := by exact_mod_cast h2
    have := Int.abs_lt_one_iff.mp h3
    omega
  rw [key _ (by norm_num [abs_lt]), key _ (by norm_num [abs_lt])]

-- non-vacuity: rounding to the nearest
example : ∃ dec : ℚ → ℤ, ∀ q, |(dec q : ℚ) - q * 10 ^ 16| ≤ 1 / 2 :=
  ⟨fun q => round (q * 10 ^ 16), fun q => by rw [abs_sub_comm]; exact abs_sub_round _⟩

/-! ## C91: attributes -/

section
variable {V : Type}

theorem addRecord_some {nd numDim : Nat} {zero : V} {x : List V} {normal : Option (List V)} {attrib : Option (List Nat)}
    {recs out : List (PointRec V)} (h : addRecord nd numDim zero x normal attrib recs = some out) :
    ∃ r, out = recs ++ [r] ∧ nd ≤ numDim ∧ numDim ≤ x.length ∧ r.coords = x.take numDim ∧
      (∃ n, storedNormal nd zero normal = some n ∧ r.normal = some n) ∧ storedAttrib attrib = some r.attrib := by
  unfold addRecord at h
  by_cases h1 : numDim < nd
  · rw [if_pos h1] at h; simp at h
  rw [if_neg h1] at h
  cases e1 : readN x numDim with
  | none => rw [e1] at h; simp at h
  | some c =>
    cases e2 : storedNormal nd zero normal with
    | none => rw [e1, e2] at h; simp at h
    | some n =>
      cases e3 : storedAttrib attrib with
      | none => rw [e1, e2, e3] at h; simp at h
      | some a =>
        rw [e1, e2, e3] at h
        simp only [Option.some.injEq] at h
        obtain ⟨g1, g2⟩ := readN_some.mp e1
        exact ⟨_, h.symm, by omega, g1, g2, ⟨n, rfl, rfl⟩, rfl⟩

/-- **C91, stored points.** Adding a point is defined exactly when the arrays given are long enough; the point comes
last, the others stay; its numbers, direction (zeros if none) and attributes are those given. -/
theorem C91_add_point (nd numDim : Nat) (zero : V) (x : List V) (normal : Option (List V)) (attrib : Option (List Nat))
    (recs : List (PointRec V)) :
    ((addRecord nd numDim zero x normal attrib recs).isSome ↔
      nd ≤ numDim ∧ numDim ≤ x.length ∧ (∀ n, normal = some n → nd ≤ n.length) ∧ ∀ a, attrib = some a → ∃ k, a[0]? = some k ∧ k ≤ a.length) ∧
    ∀ out, addRecord nd numDim zero x normal attrib recs = some out →
      (∀ p < recs.length, out[p]? = recs[p]?) ∧ ∃ r, out[recs.length]? = some r ∧ out.length = recs.length + 1 ∧
        r.coords.length = numDim ∧ (∀ i < numDim, r.coords[i]? = x[i]?) ∧
        (∃ n, r.normal = some n ∧ n.length = nd ∧ ∀ i < nd, n[i]? = (match normal with | none => some zero | some m => m[i]?)) ∧
        (∀ a k, attrib = some a → a[0]? = some k → ∃ b, r.attrib = some b ∧ b.length = k ∧ ∀ i < k, b[i]? = a[i]?) ∧
        (attrib = none → r.attrib = none) := by
  constructor
  · rw [Option.isSome_iff_exists]
    constructor
    · rintro ⟨out, h⟩
      obtain ⟨r, _, g1, g2, _, ⟨n, g3, _⟩, g4⟩ := addRecord_some h
      refine ⟨g1, g2, ?_, ?_⟩
      · rintro m rfl; exact (readN_some.mp g3).1
      · rintro a rfl
        simp only [storedAttrib] at g4
        cases e : a[0]? with
        | none => rw [e] at g4; simp at g4
        | some k =>
          rw [e] at g4
          simp only at g4
          refine ⟨k, rfl, ?_⟩
          by_contra hlt
          rw [readN, if_neg hlt] at g4; simp at g4
    · rintro ⟨g1, g2, g3, g4⟩
      have e2 : ∃ n, storedNormal nd zero normal = some n := by
        cases normal with
        | none => exact ⟨_, rfl⟩
        | some n => exact ⟨_, readN_some.mpr ⟨g3 n rfl, rfl⟩⟩
      have e3 : ∃ a, storedAttrib attrib = some a := by
        cases attrib with
        | none => exact ⟨_, rfl⟩
        | some a =>
          obtain ⟨k, h0, hk⟩ := g4 a rfl
          refine ⟨some (a.take k), ?_⟩
          simp only [storedAttrib, h0]
          rw [readN_some.mpr ⟨hk, rfl⟩]; rfl
      obtain ⟨n, e2⟩ := e2
      obtain ⟨a, e3⟩ := e3
      unfold addRecord
      rw [if_neg (by omega), readN_some.mpr ⟨g2, rfl⟩, e2, e3]
      exact ⟨_, rfl⟩
  · intro out h
    obtain ⟨r, rfl, g1, g2, g3, ⟨n, g4, g5⟩, g6⟩ := addRecord_some h
    refine ⟨fun p hp => List.getElem?_append_left hp, r, by simp, by simp, ?_, ?_, ⟨n, g5, ?_, ?_⟩, ?_, ?_⟩
    · rw [g3]; simp [g2]
    · intro i hi; rw [g3, List.getElem?_take_of_lt hi]
    · cases normal with
      | none => simp only [storedNormal, Option.some.injEq] at g4; rw [← g4]; simp
      | some m => obtain ⟨a, b⟩ := readN_some.mp g4; rw [b]; simp [a]
    · intro i hi
      cases normal with
      | none => simp only [storedNormal, Option.some.injEq] at g4; rw [← g4]; simp [hi]
      | some m => obtain ⟨a, b⟩ := readN_some.mp g4; rw [b, List.getElem?_take_of_lt hi]
    · rintro a k rfl h0
      simp only [storedAttrib, h0] at g6
      cases e : readN a k with
      | none => rw [e] at g6; simp at g6
      | some b =>
        rw [e] at g6
        simp only [Option.map_some, Option.some.injEq] at g6
        obtain ⟨q1, q2⟩ := readN_some.mp e
        exact ⟨b, g6.symm, by rw [q2]; simp [q1], fun i hi => by rw [q2, List.getElem?_take_of_lt hi]⟩
    · rintro rfl
      simp only [storedAttrib, Option.some.injEq] at g6
      exact g6.symm

/-- **C91, attributes.** An attribute of a point added with `k` entries, the count first, is the one given; asking for
an attribute beyond the count is answered with `false`. -/
theorem C91_attributes (nd numDim : Nat) (zero : V) (x : List V) (normal : Option (List V)) (a : List Nat) (k : Nat) (h0 : a[0]? = some k)
    (recs out : List (PointRec V)) (h : addRecord nd numDim zero x normal (some a) recs = some out) (i : Nat) :
    (i + 1 < k → getAttrib out recs.length i = some a[i + 1]?) ∧ (1 ≤ k → k ≤ i → getAttrib out recs.length i = some none) ∧
    (∀ j v, j + 1 < k → ∃ out', setAttrib out recs.length j v = some out' ∧
      (i + 1 < k → getAttrib out' recs.length i = some (if i = j then some v else a[i + 1]?)) ∧
      ∀ p, p ≠ recs.length → out'[p]? = out[p]?) := by
  obtain ⟨_, hall⟩ := C91_add_point nd numDim zero x normal (some a) recs
  obtain ⟨_, r, hr, hlen, _, _, _, hat, _⟩ := hall out h
  obtain ⟨b, eb, hbl, hb⟩ := hat a k rfl h0
  have hka : k ≤ a.length := by
    obtain ⟨_, _, _, _, _, _, g⟩ := addRecord_some h
    simp only [storedAttrib, h0] at g
    by_contra hlt
    rw [readN, if_neg hlt] at g; simp at g
  refine ⟨fun hi => ?_, fun hk hi => ?_, fun j v hj => ?_⟩
  · simp only [getAttrib, hr, eb, hb 0 (by omega), h0]
    rw [if_neg (by omega), Nat.add_comm 1 i, hb (i + 1) hi, List.getElem?_eq_getElem (by omega)]; rfl
  · simp only [getAttrib, hr, eb, hb 0 (by omega), h0]
    rw [if_pos hi]
  · refine ⟨out.set recs.length { r with attrib := some (b.set (1 + j) v) }, ?_, ?_, ?_⟩
    · simp only [setAttrib, hr, eb]
      rw [if_pos (by omega)]
    · intro hi
      have e1 : (out.set recs.length { r with attrib := some (b.set (1 + j) v) })[recs.length]? = some { r with attrib := some (b.set (1 + j) v) } := by
        rw [List.getElem?_set_self (by omega)]
      simp only [getAttrib, e1]
      rw [List.getElem?_set_ne (by omega), hb 0 (by omega), h0]
      simp only
      rw [if_neg (by omega)]
      by_cases hij : i = j
      · subst hij
        rw [if_pos rfl, List.getElem?_set_self (by omega)]; rfl
      · rw [if_neg hij, List.getElem?_set_ne (by omega), Nat.add_comm 1 i, hb (i + 1) hi, List.getElem?_eq_getElem (by omega)]; rfl
    · intro p hp
      rw [List.getElem?_set_ne (fun e => hp e.symm)]

/-- **C91, the last index.** The check in the query lets index `k - 1` through although the array ends there: the query
reads one entry past the end.  A point added with an attribute row that says it has no entries cannot be asked at
all. -/
theorem C91_last_index_undefined (nd numDim : Nat) (zero : V) (x : List V) (normal : Option (List V)) (a : List Nat) (k : Nat)
    (h0 : a[0]? = some k) (recs out : List (PointRec V)) (h : addRecord nd numDim zero x normal (some a) recs = some out) :
    (1 ≤ k → getAttrib out recs.length (k - 1) = none) ∧ (k = 0 → ∀ i, getAttrib out recs.length i = none) := by
  obtain ⟨_, hall⟩ := C91_add_point nd numDim zero x normal (some a) recs
  obtain ⟨_, r, hr, _, _, _, _, hat, _⟩ := hall out h
  obtain ⟨b, eb, hbl, hb⟩ := hat a k rfl h0
  constructor
  · intro hk
    simp only [getAttrib, hr, eb, hb 0 (by omega), h0]
    rw [if_neg (by omega), List.getElem?_eq_none (by omega)]; rfl
  · intro hk i
    simp only [getAttrib, hr, eb]
    rw [List.getElem?_eq_none (by omega)]

/-- Records added with a count of at least one are as C90 needs them. -/
theorem C91_good_records (nd numDim : Nat) (zero : V) (x : List V) (normal : Option (List V)) (attrib : Option (List Nat))
    (h1 : ∀ a, attrib = some a → a[0]? ≠ some 0) (recs out : List (PointRec V)) (hg : ∀ r ∈ recs, GoodRec nd numDim r)
    (h : addRecord nd numDim zero x normal attrib recs = some out) : ∀ r ∈ out, GoodRec nd numDim r := by
  obtain ⟨r, rfl, g1, g2, g3, ⟨n, g4, g5⟩, g6⟩ := addRecord_some h
  intro q hq
  rcases List.mem_append.mp hq with hq | hq
  · exact hg q hq
  · rw [List.mem_singleton.mp hq]
    obtain ⟨_, hall⟩ := C91_add_point nd numDim zero x normal attrib recs
    obtain ⟨_, r', hr', _, w1, _, ⟨n', w2, w3, _⟩, w4, w5⟩ := hall _ h
    have : r' = r := by simpa using hr'.symm
    subst this
    refine ⟨w1.ge, fun m hm => ?_, fun b hb => ?_⟩
    · rw [w2] at hm; cases hm; exact w3.ge
    · cases attrib with
      | none => rw [w5 rfl] at hb; simp at hb
      | some a =>
        simp only [storedAttrib] at g6
        cases e : a[0]? with
        | none => rw [e] at g6; simp at g6
        | some k =>
          obtain ⟨b', e1, e2, e3⟩ := w4 a k rfl e
          rw [e1] at hb
          cases hb
          have hk : k ≠ 0 := fun hk => h1 a rfl (by rw [e, hk])
          rw [e3 0 (by omega), e, e2]

end

-- non-vacuity: a sphere on face 7, added and asked for its face
example : addRecord 3 4 0 [1, 2, 3, 4] none (some [2, 7]) [] = some [(⟨[1, 2, 3, 4], some [0, 0, 0], some [2, 7]⟩ : PointRec Nat)] ∧
    getAttrib [(⟨[1, 2, 3, 4], some [0, 0, 0], some [2, 7]⟩ : PointRec Nat)] 0 0 = some (some 7) ∧
    getAttrib [(⟨[1, 2, 3, 4], some [0, 0, 0], some [2, 7]⟩ : PointRec Nat)] 0 1 = none ∧
    getAttrib [(⟨[1, 2, 3, 4], some [0, 0, 0], some [2, 7]⟩ : PointRec Nat)] 0 2 = some none := by decide

end VoroCrust
