import Mathlib.Tactic.SplitIfs
import Mathlib.Tactic.Push
import Verif.Model.Exodus

/-!
# C64, C79, C80: the Exodus output
-/

namespace VoroCrust

/-! ## C64 -/

/-- The handles open after a trace, from the handles open before it. -/
def openAfter : List Int → List LibCall → List Int
  | opn, [] => opn
  | opn, .create h :: cs => openAfter (opn ++ [h]) cs
  | opn, .put _ :: cs => openAfter opn cs
  | opn, .close h :: cs => openAfter (opn.erase h) cs

/-- The library does not give out a handle in use. -/
def LibOk : List Int → List LibCall → Prop
  | _, [] => True
  | opn, .create h :: cs => h ∉ opn ∧ LibOk (opn ++ [h]) cs
  | opn, .put _ :: cs => LibOk opn cs
  | opn, .close h :: cs => LibOk (opn.erase h) cs

/-- Only open handles are closed. -/
def ClosesOpen : List Int → List LibCall → Prop
  | _, [] => True
  | opn, .create h :: cs => ClosesOpen (opn ++ [h]) cs
  | opn, .put _ :: cs => ClosesOpen opn cs
  | opn, .close h :: cs => h ∈ opn ∧ ClosesOpen (opn.erase h) cs

theorem openAfter_append (a b : List LibCall) : ∀ opn, openAfter opn (a ++ b) = openAfter (openAfter opn a) b := by
  induction a with
  | nil => intro opn; rfl
  | cons c a ih => intro opn; cases c <;> exact ih _

theorem LibOk_append (a b : List LibCall) : ∀ opn, LibOk opn (a ++ b) ↔ LibOk opn a ∧ LibOk (openAfter opn a) b := by
  induction a with
  | nil => intro opn; simp [LibOk, openAfter]
  | cons c a ih =>
    intro opn
    cases c with
    | create h => simp only [List.cons_append, LibOk, openAfter, ih, and_assoc]
    | put h => exact ih _
    | close h => exact ih _

theorem ClosesOpen_append (a b : List LibCall) : ∀ opn, ClosesOpen opn (a ++ b) ↔ ClosesOpen opn a ∧ ClosesOpen (openAfter opn a) b := by
  induction a with
  | nil => intro opn; simp [ClosesOpen, openAfter]
  | cons c a ih =>
    intro opn
    cases c with
    | create h => exact ih _
    | put h => exact ih _
    | close h => simp only [List.cons_append, ClosesOpen, openAfter, ih, and_assoc]

/-- The number of calls that open a file while one is open. -/
def reopens : ExoWriter → List ExoOp → Nat
  | _, [] => 0
  | w, op :: ops => (match op with
      | .openFile _ r => if 0 ≤ r ∧ 0 ≤ w.exoid then 1 else 0
      | _ => 0) + reopens (exoStep w op).1 ops

theorem exoRun_invariant (ops : List ExoOp) : ∀ w opn, opn.Nodup → (0 ≤ w.exoid → w.exoid ∈ opn) → LibOk opn (exoRun w ops).2 →
    ClosesOpen opn (exoRun w ops).2 ∧ (0 ≤ (exoRun w ops).1.exoid → (exoRun w ops).1.exoid ∈ openAfter opn (exoRun w ops).2) ∧ (openAfter opn (exoRun w ops).2).Nodup ∧
    (openAfter opn (exoRun w ops).2).length + (if 0 ≤ w.exoid then 1 else 0) = opn.length + reopens w ops + (if 0 ≤ (exoRun w ops).1.exoid then 1 else 0) := by
  induction ops with
  | nil => intro w opn hn hw _; exact ⟨trivial, hw, hn, rfl⟩
  | cons op ops ih =>
    intro w opn hn hw hl
    rw [exoRun] at hl ⊢
    simp only at hl ⊢
    rw [LibOk_append] at hl
    rw [ClosesOpen_append, openAfter_append]
    obtain ⟨hl1, hl2⟩ := hl
    cases op with
    | openFile p r =>
      simp only [exoStep, reopens] at hl1 hl2 ⊢
      by_cases hr : r < 0
      · rw [if_neg (show ¬ (0 ≤ r ∧ 0 ≤ w.exoid) by omega)]
        simp only [if_pos hr, openAfter, ClosesOpen, LibOk] at hl1 hl2 ⊢
        have := ih w opn hn hw hl2
        rw [Nat.zero_add, true_and]; exact this
      · simp only [if_neg hr, openAfter, ClosesOpen, LibOk] at hl1 hl2 ⊢
        obtain ⟨g1, g2, g3, g4⟩ := ih ⟨r, p⟩ (opn ++ [r]) (List.nodup_append.2 ⟨hn, by simp, by rintro a ha b hb rfl; simp at hb; exact hl1.1 (hb ▸ ha)⟩) (by simp) hl2
        refine ⟨⟨trivial, g1⟩, g2, g3, ?_⟩
        rw [List.length_append, List.length_singleton] at g4
        simp only at g4
        rw [if_pos (by omega)] at g4
        by_cases hw0 : 0 ≤ w.exoid
        · rw [if_pos hw0, if_pos ⟨by omega, hw0⟩]; omega
        · rw [if_neg hw0, if_neg (by omega)]; omega
    | initializeFile =>
      simp only [exoStep, reopens] at hl1 hl2 ⊢
      by_cases hw0 : w.exoid < 0
      · simp only [if_pos hw0, openAfter, ClosesOpen, LibOk] at hl1 hl2 ⊢
        have := ih w opn hn hw hl2
        rw [Nat.zero_add, true_and]; exact this
      · simp only [if_neg hw0, openAfter, ClosesOpen, LibOk] at hl1 hl2 ⊢
        have := ih w opn hn hw hl2
        rw [Nat.zero_add, true_and]; exact this
    | setBlockName =>
      simp only [exoStep, reopens, openAfter, ClosesOpen, LibOk] at hl1 hl2 ⊢
      have := ih w opn hn hw hl2
      rw [Nat.zero_add, true_and]; exact this
    | closeFile =>
      simp only [exoStep, reopens, ExoWriter.hasOpenFile] at hl1 hl2 ⊢
      by_cases hw0 : 0 ≤ w.exoid
      · simp only [ge_iff_le, hw0, decide_true, Bool.not_true, Bool.false_eq_true, if_false, openAfter, ClosesOpen, LibOk] at hl1 hl2 ⊢
        have hm := hw hw0
        obtain ⟨g1, g2, g3, g4⟩ := ih ⟨-1, ""⟩ (opn.erase w.exoid) (hn.erase _) (by simp) hl2
        refine ⟨⟨⟨hm, trivial⟩, g1⟩, g2, g3, ?_⟩
        have hlen := List.length_erase_of_mem hm
        have hpos := List.length_pos_of_mem hm
        simp only at g4
        rw [if_neg (by omega), hlen] at g4
        simp only [if_true]
        omega
      · simp only [ge_iff_le, hw0, decide_false, Bool.not_false, if_true, openAfter, ClosesOpen, LibOk] at hl1 hl2 ⊢
        have := ih w opn hn hw hl2
        rw [if_neg hw0] at this
        rw [Nat.zero_add, true_and]; exact this

/-- **C64** for every history of calls of a new writer and its destruction, the library giving out no handle in use: only open handles are closed, so each at most once; the number of handles left open is the number of calls that
opened a file while one was open. -/
theorem C64_all_histories (ops : List ExoOp) (hl : LibOk [] (exoRun .new ops).2) :
    let t := (exoRun .new ops).2 ++ exoDestroy (exoRun .new ops).1
    ClosesOpen [] t ∧ (openAfter [] t).length = reopens .new ops := by
  obtain ⟨h1, h2, h3, h4⟩ := exoRun_invariant ops .new [] List.nodup_nil (by simp [ExoWriter.new]) hl
  generalize (exoRun .new ops).1 = w at *
  generalize (exoRun .new ops).2 = t at *
  simp only
  rw [ClosesOpen_append, openAfter_append]
  rw [if_neg (by simp [ExoWriter.new]), List.length_nil] at h4
  unfold exoDestroy exoStep ExoWriter.hasOpenFile
  by_cases hw : 0 ≤ w.exoid
  · have hm := h2 hw
    simp only [ge_iff_le, hw, decide_true, if_true, Bool.not_true, Bool.false_eq_true, if_false, ClosesOpen, openAfter]
    rw [List.length_erase_of_mem hm]
    rw [if_pos hw] at h4
    exact ⟨⟨h1, hm, trivial⟩, by omega⟩
  · rw [if_neg hw] at h4
    simp only [ge_iff_le, hw, decide_false, Bool.false_eq_true, if_false, ClosesOpen, openAfter]
    exact ⟨⟨h1, trivial⟩, by omega⟩

/-- Files are opened only when the writer has none open. -/
def Disciplined : ExoWriter → List ExoOp → Prop
  | _, [] => True
  | w, op :: ops => (∀ p r, op = .openFile p r → w.hasOpenFile = false) ∧ Disciplined (exoStep w op).1 ops

theorem prefix_append_cases {α : Type} {p a b : List α} (h : p <+: a ++ b) : p <+: a ∨ ∃ q, p = a ++ q ∧ q <+: b := by
  rcases List.prefix_or_prefix_of_prefix h (List.prefix_append a b) with g | ⟨q, rfl⟩
  · exact Or.inl g
  · exact Or.inr ⟨q, rfl, (List.prefix_append_right_inj a).1 h⟩

theorem prefix_single {α : Type} {p : List α} {c : α} (h : p <+: [c]) : p = [] ∨ p = [c] := by
  cases p with
  | nil => exact Or.inl rfl
  | cons a l =>
    obtain ⟨q, e⟩ := h
    simp only [List.cons_append, List.cons.injEq, List.append_eq_nil_iff] at e
    exact Or.inr (by rw [e.1, e.2.1])

theorem disciplined_run (ops : List ExoOp) : ∀ w opn, opn = (if 0 ≤ w.exoid then [w.exoid] else []) → Disciplined w ops →
    (∀ p, p <+: (exoRun w ops).2 → (openAfter opn p).length ≤ 1) ∧ openAfter opn (exoRun w ops).2 = (if 0 ≤ (exoRun w ops).1.exoid then [(exoRun w ops).1.exoid] else []) := by
  induction ops with
  | nil =>
    intro w opn ho _
    refine ⟨fun p hp => ?_, ho⟩
    simp only [exoRun, List.prefix_nil] at hp
    subst hp
    rw [openAfter, ho]
    split_ifs <;> simp
  | cons op ops ih =>
    intro w opn ho hd
    obtain ⟨hd1, hd2⟩ := hd
    have hlen : opn.length ≤ 1 := by rw [ho]; split_ifs <;> simp
    rw [exoRun]
    simp only
    have key : ∀ opn', openAfter opn (exoStep w op).2.1 = opn' → opn' = (if 0 ≤ (exoStep w op).1.exoid then [(exoStep w op).1.exoid] else []) → (∀ p, p <+: (exoStep w op).2.1 → (openAfter opn p).length ≤ 1) →
        (∀ p, p <+: (exoStep w op).2.1 ++ (exoRun (exoStep w op).1 ops).2 → (openAfter opn p).length ≤ 1) ∧
        openAfter opn ((exoStep w op).2.1 ++ (exoRun (exoStep w op).1 ops).2) = (if 0 ≤ (exoRun (exoStep w op).1 ops).1.exoid then [(exoRun (exoStep w op).1 ops).1.exoid] else []) := by
      intro opn' e1 e2 e3
      obtain ⟨g1, g2⟩ := ih _ _ e2 hd2
      refine ⟨fun p hp => ?_, by rw [openAfter_append, e1]; exact g2⟩
      rcases prefix_append_cases hp with h | ⟨q, rfl, hq⟩
      · exact e3 p h
      · rw [openAfter_append, e1]; exact g1 q hq
    have stepLen : ∀ c, (exoStep w op).2.1 = [c] → (openAfter opn [c]).length ≤ 1 → ∀ p, p <+: (exoStep w op).2.1 → (openAfter opn p).length ≤ 1 := by
      intro c hc h1 p hp
      rw [hc] at hp
      rcases prefix_single hp with rfl | rfl
      · exact hlen
      · exact h1
    have stepNil : (exoStep w op).2.1 = [] → ∀ p, p <+: (exoStep w op).2.1 → (openAfter opn p).length ≤ 1 := by
      intro hc p hp
      rw [hc, List.prefix_nil] at hp
      subst hp
      exact hlen
    cases op with
    | openFile p r =>
      have hw : ¬ 0 ≤ w.exoid := by simpa [ExoWriter.hasOpenFile] using hd1 p r rfl
      rw [if_neg hw] at ho
      subst ho
      by_cases hr : r < 0
      · have e : exoStep w (.openFile p r) = (w, [], true) := by simp [exoStep, hr]
        exact key [] (by rw [e]; rfl) (by rw [e]; simp only; rw [if_neg hw]) (stepNil (by rw [e]))
      · have e : exoStep w (.openFile p r) = (⟨r, p⟩, [.create r], false) := by simp [exoStep, hr]
        exact key [r] (by rw [e]; rfl) (by rw [e]; simp only; rw [if_pos (by omega)]) (stepLen (.create r) (by rw [e]) (by simp [openAfter]))
    | initializeFile =>
      by_cases hw : w.exoid < 0
      · have e : exoStep w .initializeFile = (w, [], true) := by simp [exoStep, hw]
        exact key opn (by rw [e]; rfl) (by rw [e]; exact ho) (stepNil (by rw [e]))
      · have e : exoStep w .initializeFile = (w, [.put w.exoid], false) := by simp [exoStep, hw]
        exact key opn (by rw [e]; rfl) (by rw [e]; exact ho) (stepLen (.put w.exoid) (by rw [e]) hlen)
    | setBlockName => exact key opn rfl ho (stepLen (.put w.exoid) rfl hlen)
    | closeFile =>
      by_cases hw : 0 ≤ w.exoid
      · have e : exoStep w .closeFile = (⟨-1, ""⟩, [.close w.exoid], false) := by simp [exoStep, ExoWriter.hasOpenFile, hw]
        rw [if_pos hw] at ho
        subst ho
        exact key [] (by rw [e]; simp [openAfter]) (by rw [e]; simp) (stepLen (.close w.exoid) (by rw [e]) (by simp [openAfter]))
      · have e : exoStep w .closeFile = (w, [], true) := by simp [exoStep, ExoWriter.hasOpenFile, hw]
        exact key opn (by rw [e]; rfl) (by rw [e]; exact ho) (stepNil (by rw [e]))

/-- **C64** (partial): if a file is opened only when none is open, at most one handle is open at any time and none after the destruction.  Missing: other histories (`C64_second_open_false`). -/
theorem C64_one_file_partial (ops : List ExoOp) (hd : Disciplined .new ops) :
    (∀ p, p <+: (exoRun .new ops).2 ++ exoDestroy (exoRun .new ops).1 → (openAfter [] p).length ≤ 1) ∧ openAfter [] ((exoRun .new ops).2 ++ exoDestroy (exoRun .new ops).1) = [] := by
  obtain ⟨h1, h2⟩ := disciplined_run ops .new [] (by simp [ExoWriter.new]) hd
  generalize (exoRun .new ops).1 = w at *
  generalize (exoRun .new ops).2 = t at *
  have hall : openAfter [] (t ++ exoDestroy w) = [] := by
    rw [openAfter_append, h2]
    unfold exoDestroy exoStep ExoWriter.hasOpenFile
    by_cases hw : 0 ≤ w.exoid
    · simp [hw, openAfter]
    · simp [hw, openAfter]
  refine ⟨fun p hp => ?_, hall⟩
  rcases prefix_append_cases hp with h | ⟨q, rfl, hq⟩
  · exact h1 p h
  · by_cases hw : 0 ≤ w.exoid
    · have e : exoDestroy w = [.close w.exoid] := by simp [exoDestroy, exoStep, ExoWriter.hasOpenFile, hw]
      rw [e] at hq
      rcases prefix_single hq with rfl | rfl
      · rw [List.append_nil]; exact h1 t (List.prefix_refl _)
      · rw [e] at hall; rw [hall]; simp
    · have e : exoDestroy w = [] := by simp [exoDestroy, ExoWriter.hasOpenFile, hw]
      rw [e, List.prefix_nil] at hq
      subst hq
      rw [List.append_nil]; exact h1 t (List.prefix_refl _)

/-- The case: two files one after the other, a failure, a close too many, the last file closed by the destructor. -/
example : Disciplined .new [.closeFile, .openFile "a" 3, .initializeFile, .setBlockName, .closeFile, .closeFile, .openFile "b" (-2), .openFile "b" 3, .initializeFile] ∧
    LibOk [] (exoRun .new [.closeFile, .openFile "a" 3, .initializeFile, .setBlockName, .closeFile, .closeFile, .openFile "b" (-2), .openFile "b" 3, .initializeFile]).2 ∧
    exoDestroy (exoRun .new [.closeFile, .openFile "a" 3, .initializeFile, .setBlockName, .closeFile, .closeFile, .openFile "b" (-2), .openFile "b" 3, .initializeFile]).1 = [.close 3] := by
  refine ⟨?_, ?_, by decide⟩
  · simp [Disciplined, exoStep, ExoWriter.new, ExoWriter.hasOpenFile]
  · simp [LibOk, exoRun, exoStep, ExoWriter.new, ExoWriter.hasOpenFile]

/-- **C64**: closing without an open file throws, calls nothing and changes nothing; with one it closes that file and the writer has none open. -/
theorem C64_close (w : ExoWriter) : (w.hasOpenFile = false → exoStep w .closeFile = (w, [], true)) ∧
    (w.hasOpenFile = true → (exoStep w .closeFile).2 = ([.close w.exoid], false) ∧ (exoStep w .closeFile).1.hasOpenFile = false) := by
  constructor
  · intro h; simp [exoStep, h]
  · intro h
    have e : exoStep w .closeFile = (⟨-1, ""⟩, [.close w.exoid], false) := by simp [exoStep, h]
    rw [e]
    exact ⟨rfl, rfl⟩

/-- **C64** fails: a file opened while another is open; the first is never closed. -/
theorem C64_second_open_false : ∃ ops, LibOk [] (exoRun .new ops).2 ∧ (openAfter [] (exoRun .new ops).2).length = 2 ∧ openAfter [] ((exoRun .new ops).2 ++ exoDestroy (exoRun .new ops).1) = [3] :=
  ⟨[.openFile "a" 3, .openFile "b" 4], by simp [LibOk, exoRun, exoStep, ExoWriter.new], by decide, by decide⟩

/-- **C64**: the calls without a test pass the number -1 to the library. -/
theorem C64_no_handle_false : (exoStep .new .setBlockName).2 = ([.put (-1)], false) := rfl

/-! ## C79 -/

/-- **C79** (partial): the coordinates of one axis are read in bounds exactly if there is one for every node; those of three axes at once are held in an array of half the size needed, so that already with one number for each node
the library reads past its end.  Missing: `setCoordinates`, where the claim is false, and the values. -/
theorem C79_coordinates_partial (numNodes n : Nat) : (coordsOnAxis numNodes n = some () ↔ numNodes ≤ n) ∧ (0 < numNodes → coordsThree numNodes numNodes = none) := by
  unfold coordsOnAxis coordsThree libReadCoords
  constructor
  · split_ifs with h
    · simp; omega
    · simp; omega
  · intro h; rw [if_neg (by omega)]

/-! ## C80 -/

/-- The reader's view of a connectivity table: lists of the given lengths, one after the other, with numbers from 1. -/
def splitCounts : List Int → List Int → List (List Int)
  | [], _ => []
  | n :: ns, es => es.take n.toNat :: splitCounts ns (es.drop n.toNat)

/-- The largest `int`. -/
def intMax : Nat := 2147483647

theorem castInt_eq {v : Nat} (h : v ≤ intMax) : castInt v = v := by
  unfold castInt
  unfold intMax at h
  rw [Int.bmod_eq_of_le] <;> omega

theorem castInt1_eq {v : Nat} (h : v < intMax) : castInt1 v = some ((v : Int) + 1) := by
  unfold castInt1
  rw [castInt_eq (by omega)]
  unfold intMax at h
  rw [if_neg (by omega)]

theorem exoEntries_eq (cap : Nat) (l : List Nat) : ∀ arr, (∀ v ∈ l, v < intMax) → arr.length + l.length ≤ cap → exoEntries cap l arr = some (arr ++ l.map fun v : Nat => (v : Int) + 1) := by
  induction l with
  | nil => intro arr _ _; simp [exoEntries]
  | cons v l ih =>
    intro arr h hc
    rw [List.length_cons] at hc
    rw [exoEntries, exoWrite, if_pos (by omega), castInt1_eq (h v (by simp)), Option.map_some]
    simp only
    rw [ih _ (fun w hw => h w (by simp [hw])) (by simp; omega)]
    simp

theorem exoFill_eq (capN cap : Nat) (fs : List (List Nat)) : ∀ ns arr, (∀ f ∈ fs, f.length ≤ intMax ∧ ∀ v ∈ f, v < intMax) → ns.length + fs.length ≤ capN → arr.length + exoTotal fs ≤ cap →
    exoFill capN cap fs ns arr = some (ns ++ fs.map fun f => (f.length : Int), arr ++ fs.flatten.map fun v : Nat => (v : Int) + 1) := by
  induction fs with
  | nil => intro ns arr _ _ _; simp [exoFill]
  | cons f fs ih =>
    intro ns arr h h1 h2
    rw [List.length_cons] at h1
    rw [exoTotal] at h2
    rw [exoFill, if_pos (by omega), exoEntries_eq cap f arr (h f (by simp)).2 (by omega)]
    simp only
    rw [ih _ _ (fun g hg => h g (by simp [hg])) (by simp; omega) (by simp; omega), castInt_eq (h f (by simp)).1]
    simp

theorem splitCounts_flatten (fs : List (List Nat)) : splitCounts (fs.map fun f => (f.length : Int)) (fs.flatten.map fun v : Nat => (v : Int) + 1) = fs.map fun f => f.map fun v : Nat => (v : Int) + 1 := by
  induction fs with
  | nil => rfl
  | cons f fs ih =>
    rw [List.map_cons, List.flatten_cons, splitCounts, List.map_append, Int.toNat_natCast, List.take_left' (by simp), List.drop_left' (by simp), ih, List.map_cons]

theorem splitCounts_length (fs : List (List Nat)) : ((fs.map fun f => (f.length : Int)).sum : Int) = (fs.flatten.map fun v : Nat => (v : Int) + 1).length := by
  induction fs with
  | nil => rfl
  | cons f fs ih => rw [List.map_cons, List.sum_cons, ih]; simp

theorem exoCellFill_eq (capN cap : Nat) (cs : List (Nat × List Nat)) : ∀ ns arr, (∀ c ∈ cs, c.1 ≠ 0 → c.2.length ≤ intMax ∧ ∀ v ∈ c.2, v < intMax) →
    ns.length + (exoCellCount cs).1 ≤ capN → arr.length + (exoCellCount cs).2 ≤ cap →
    exoCellFill capN cap cs ns arr = some (ns ++ ((cs.filter fun c => c.1 ≠ 0).map Prod.snd).map fun f => (f.length : Int), arr ++ ((cs.filter fun c => c.1 ≠ 0).map Prod.snd).flatten.map fun v : Nat => (v : Int) + 1) := by
  induction cs with
  | nil => intro ns arr _ _ _; simp [exoCellFill]
  | cons c cs ih =>
    intro ns arr h h1 h2
    rw [exoCellFill]
    rw [exoCellCount] at h1 h2
    by_cases hc : c.1 = 0
    · rw [if_pos hc] at h1 h2 ⊢
      rw [ih ns arr (fun x hx => h x (by simp [hx])) h1 h2, List.filter_cons_of_neg (by simp [hc])]
    · rw [if_neg hc] at h1 h2 ⊢
      simp only at h1 h2
      obtain ⟨g1, g2⟩ := h c (by simp) hc
      rw [exoEntries_eq cap c.2 arr g2 (by omega)]
      simp only
      rw [if_pos (by omega), ih _ _ (fun x hx => h x (by simp [hx])) (by simp; omega) (by simp; omega), castInt_eq g1, List.filter_cons_of_pos (by simp [hc])]
      simp

/-- **C80**: for every mesh whose numbers fit into an `int`, the arrays handed to the Exodus library are filled without leaving their bounds and describe the mesh: splitting the entries by the counts gives the faces, and the cells
inside (region not 0) in their order, each with its list of faces, numbered from 1; the counts add up to the number of entries. -/
theorem C80_connectivity (faces : List (List Nat)) (cells : List (Nat × List Nat)) (hf : ∀ f ∈ faces, f.length ≤ intMax ∧ ∀ v ∈ f, v < intMax)
    (hc : ∀ c ∈ cells, c.1 ≠ 0 → c.2.length ≤ intMax ∧ ∀ v ∈ c.2, v < intMax) :
    (∃ ns es, exoFaces faces = some (ns, es) ∧ splitCounts ns es = (faces.map fun f => f.map fun v : Nat => (v : Int) + 1) ∧ ns.sum = es.length) ∧
    ∃ ns es, exoCells cells = some (ns, es) ∧ splitCounts ns es = ((cells.filter fun c => c.1 ≠ 0).map fun c => c.2.map fun v : Nat => (v : Int) + 1) ∧ ns.sum = es.length := by
  constructor
  · refine ⟨_, _, exoFill_eq _ _ faces [] [] hf (by simp) (by simp), ?_, ?_⟩
    · rw [List.nil_append, List.nil_append]; exact splitCounts_flatten faces
    · rw [List.nil_append, List.nil_append]; exact splitCounts_length faces
  · refine ⟨_, _, exoCellFill_eq _ _ cells [] [] hc (by simp) (by simp), ?_, ?_⟩
    · rw [List.nil_append, List.nil_append, splitCounts_flatten, List.map_map]; rfl
    · rw [List.nil_append, List.nil_append]; exact splitCounts_length _

/-- The case: two faces and three cells, one of them outside. -/
example : exoFaces [[0, 1, 2], [2, 1, 3, 4]] = some ([3, 4], [1, 2, 3, 3, 2, 4, 5]) ∧ exoCells [(1, [0, 1]), (0, [1]), (2, [1])] = some ([2, 1], [1, 2, 2]) := by decide

/-- **C80**: the largest `int` overflows. -/
theorem C80_overflow_undefined : exoFaces [[2147483647]] = none := by decide

end VoroCrust
