import Verif.Model.Text
import Mathlib.Data.List.Basic
import Mathlib.Data.List.Induction
import Mathlib.Tactic.SplitIfs
import Mathlib.Tactic.IntervalCases

/-! # Properties C12 – C16 and C65: text input and the command line -/

set_option linter.unusedSimpArgs false

namespace VoroCrust

/-! ## C12: tokens -/

/-- Join tokens with a separator. -/
def joinWith (sep : Char) : List Tok → List Char
  | [] => []
  | [t] => t
  | t :: ts => t ++ sep :: joinWith sep ts

theorem findFrom_spec (line : List Char) (sep : Char) (fuel start : Nat) (hs : start ≤ line.length) (hf : line.length < fuel + start) :
    start ≤ findFrom line sep fuel start ∧ findFrom line sep fuel start ≤ line.length ∧
      (∀ k, start ≤ k → k < findFrom line sep fuel start → ∃ h : k < line.length, line[k] ≠ sep) ∧
      (findFrom line sep fuel start < line.length → line[findFrom line sep fuel start]? = some sep) := by
  induction fuel generalizing start with
  | zero => omega
  | succ fuel ih =>
    simp only [findFrom]
    by_cases hlt : start < line.length
    · rw [List.getElem?_eq_getElem hlt]
      simp only
      by_cases hc : line[start] = sep
      · rw [if_pos hc]
        refine ⟨Nat.le_refl _, hs, fun k h1 h2 => absurd h1 (by omega), fun _ => ?_⟩
        rw [List.getElem?_eq_getElem hlt, hc]
      · rw [if_neg hc]
        obtain ⟨h1, h2, h3, h4⟩ := ih (start + 1) (by omega) (by omega)
        refine ⟨by omega, h2, ?_, h4⟩
        intro k hk1 hk2
        by_cases hk : k = start
        · subst hk; exact ⟨hlt, hc⟩
        · exact h3 k (by omega) hk2
    · rw [List.getElem?_eq_none (by omega)]
      simp only
      exact ⟨hs, Nat.le_refl _, fun k h1 h2 => absurd h1 (by omega), fun h => absurd h (by omega)⟩

theorem joinWith_append_single (sep : Char) (acc : List Tok) (t : Tok) (h : acc ≠ []) :
    joinWith sep (acc ++ [t]) = joinWith sep acc ++ sep :: t := by
  induction acc with
  | nil => exact absurd rfl h
  | cons a acc ih =>
    cases acc with
    | nil => simp [joinWith]
    | cons b acc => simp only [List.cons_append, joinWith] at ih ⊢; rw [ih (by simp)]; simp

theorem tokensLoop_spec (line : List Char) (sep : Char) (fuel start : Nat) (acc : List Tok) (hs : start ≤ line.length)
    (hf : line.length < fuel + start) (h1 : ∀ t ∈ acc, sep ∉ t) (h2 : acc.length = (line.take start).count sep)
    (h3 : (acc = [] ∧ start = 0) ∨ (acc ≠ [] ∧ joinWith sep acc ++ [sep] = line.take start)) :
    ∃ ts, tokensLoop line sep fuel start acc = some ts ∧ (∀ t ∈ ts, sep ∉ t) ∧ ts.length = line.count sep + 1 ∧
      joinWith sep ts = line := by
  induction fuel generalizing start acc with
  | zero => omega
  | succ fuel ih =>
    obtain ⟨g1, g2, g3, g4⟩ := findFrom_spec line sep (line.length + 1) start hs (by omega)
    simp only [tokensLoop]
    set e := findFrom line sep (line.length + 1) start with he
    set t := (line.drop start).take (e - start) with ht
    have hsub : substr line start (e - start) = some t := by simp [substr, hs, ht]
    have htake : line.take e = line.take start ++ t := by
      rw [ht, show e = start + (e - start) by omega, List.take_add]; simp
    have hnot : sep ∉ t := by
      intro hmem
      obtain ⟨k, hk, hkk⟩ := List.getElem_of_mem hmem
      have hkl : k < e - start := by rw [ht, List.length_take, List.length_drop] at hk; omega
      obtain ⟨hh, hne⟩ := g3 (start + k) (by omega) (by omega)
      apply hne
      rw [← hkk]
      simp only [ht, List.getElem_take, List.getElem_drop]
    have hcount : (line.take e).count sep = (line.take start).count sep := by
      rw [htake, List.count_append, List.count_eq_zero_of_not_mem hnot]; simp
    have hjoin : joinWith sep (acc ++ [t]) = line.take e := by
      rcases h3 with ⟨rfl, rfl⟩ | ⟨hne, hj⟩
      · simp only [List.nil_append, joinWith]; rw [htake]; simp
      · rw [joinWith_append_single sep acc t hne, htake, ← hj]; simp
    have hall : ∀ u ∈ acc ++ [t], sep ∉ u := by
      intro u hu
      rcases List.mem_append.1 hu with hu | hu
      · exact h1 u hu
      · rw [List.mem_singleton.1 hu]; exact hnot
    rw [hsub]
    simp only
    by_cases hel : e = line.length
    · rw [if_pos hel]
      rw [hel, List.take_length] at hcount hjoin
      refine ⟨acc ++ [t], rfl, hall, ?_, hjoin⟩
      rw [List.length_append, h2, ← hcount]; rfl
    · rw [if_neg hel]
      have hlt : e < line.length := by omega
      have hsep : line.take (e + 1) = line.take e ++ [sep] := by
        rw [List.take_add_one, g4 hlt]; rfl
      refine ih (e + 1) (acc ++ [t]) (by omega) (by omega) hall ?_ ?_
      · rw [hsep, List.count_append, hcount, List.length_append, h2]; simp
      · right
        refine ⟨by simp, ?_⟩
        rw [hjoin, hsep]

/-- **C12.** Splitting any line at any separator terminates without exception; there is one more token
than separators, no token contains the separator, and joining gives the line back. -/
theorem C12_tokens_lossless (line : List Char) (sep : Char) :
    ∃ ts, getTokens line sep = some ts ∧ ts.length = line.count sep + 1 ∧ (∀ t ∈ ts, sep ∉ t) ∧ joinWith sep ts = line := by
  obtain ⟨ts, e, h1, h2, h3⟩ := tokensLoop_spec line sep (line.length + 1) 0 [] (Nat.zero_le _) (by omega) (by simp) (by simp)
    (Or.inl ⟨rfl, rfl⟩)
  exact ⟨ts, e, h2, h1, h3⟩

-- non-vacuity: empty fields at the ends and in the middle
example : getTokens ",a,,bc,".toList ',' = some ["".toList, "a".toList, "".toList, "bc".toList, "".toList] := by decide

/-- The tokens of a line (total version used in the statements below). -/
theorem getTokens_isSome (line : List Char) (sep : Char) : ∃ ts, getTokens line sep = some ts ∧ ts ≠ [] := by
  obtain ⟨ts, e, h, _⟩ := C12_tokens_lossless line sep
  exact ⟨ts, e, fun hh => by rw [hh] at h; simp at h⟩

theorem wordsGo_flatten (cs cur : List Char) :
    (wordsGo cs cur).flatten = cur ++ cs.filter (fun c => !isWs c) := by
  induction cs generalizing cur with
  | nil => simp only [wordsGo]; split_ifs with h <;> simp [h]
  | cons c cs ih =>
    simp only [wordsGo]
    by_cases hw : isWs c = true
    · by_cases hc : cur = [] <;> simp [hw, hc, ih]
    · simp [hw, ih]

theorem wordsGo_mem (cs cur : List Char) (hcur : ∀ c ∈ cur, isWs c = false) :
    ∀ t ∈ wordsGo cs cur, t ≠ [] ∧ ∀ c ∈ t, isWs c = false := by
  induction cs generalizing cur with
  | nil =>
    simp only [wordsGo]; split_ifs with h
    · simp
    · intro t ht; rw [List.mem_singleton.1 ht]; exact ⟨h, hcur⟩
  | cons c cs ih =>
    simp only [wordsGo]
    by_cases hw : isWs c = true
    · by_cases hc : cur = []
      · simp only [hw, hc, if_true]; exact ih [] (by simp)
      · simp only [hw, hc, if_true, if_false]
        intro t ht
        rcases List.mem_cons.1 ht with rfl | ht
        · exact ⟨hc, hcur⟩
        · exact ih [] (by simp) t ht
    · simp only [hw]
      refine ih (cur ++ [c]) ?_
      intro d hd
      rcases List.mem_append.1 hd with hd | hd
      · exact hcur d hd
      · rw [List.mem_singleton.1 hd]; simpa using hw

/-- **C12, white-space words.** No word is empty or contains white space, and together the words are
the non-space characters of the line in order. -/
theorem C12_words (line : List Char) :
    (∀ t ∈ words line, t ≠ [] ∧ ∀ c ∈ t, isWs c = false) ∧ (words line).flatten = line.filter (fun c => !isWs c) :=
  ⟨wordsGo_mem line [] (by simp), by simp [words, wordsGo_flatten]⟩

/-! ## C13: configuration file -/

/-- Lines whose first word is `key`. -/
def linesOf (key : String) (ls : List (List Tok)) : List (List Tok) := ls.filter (fun t => t[0]? = some key.toList)

/-- Third word of the last line starting with `key`. -/
def lastValue (key : String) (ls : List (List Tok)) : Option Tok := (linesOf key ls).getLast?.bind (fun t => t[2]?)

/-- Third words of all lines starting with one of `keys`, in file order. -/
def allValues (keys : List String) (ls : List (List Tok)) : List Tok :=
  (ls.filter (fun t => keys.any (fun k => t[0]? = some k.toList))).filterMap (fun t => t[2]?)

/-- The keywords that take a value. -/
def valueKeys : List String := ["INPUT_MESH_FILE", "SIZING_FILE", "R_MIN", "R_MAX", "LIP_CONST", "VC_ANGLE", "NUM_THREADS", "SEEDS_FILE"]

/-- A line with a value keyword but fewer than three words. -/
def ShortLine (t : List Tok) : Prop := (∃ k ∈ valueKeys, t[0]? = some k.toList) ∧ t.length < 3

/-- What the file means. -/
def configMeaning {V : Type} (N : NumOps V) (ls : List (List Tok)) : Config V :=
  { filenames := allValues ["INPUT_MESH_FILE", "SEEDS_FILE"] ls
    sizing := (lastValue "SIZING_FILE" ls).getD []
    rMin := ((lastValue "R_MIN" ls).map N.parse).getD N.zero
    rMax := ((lastValue "R_MAX" ls).map N.parse).getD N.dblMax
    lip := ((lastValue "LIP_CONST" ls).map N.parse).getD N.tenth
    angle := ((lastValue "VC_ANGLE" ls).map N.parse).getD N.twenty
    threads := ((lastValue "NUM_THREADS" ls).map (fun t => N.toInt (N.parse t))).getD 1
    vcg := linesOf "GENERATE_VCG_FILE" ls ≠ []
    exodus := linesOf "GENERATE_EXODUS_FILE" ls ≠ []
    genMonitoring := linesOf "GENERATE_MONITORING_POINTS" ls ≠ []
    imposeMonitoring := linesOf "IMPOSE_MONITORING_POINTS" ls ≠ []
    fromSeeds := linesOf "GENERATE_MESH_FROM_SEEDS" ls ≠ [] }

theorem lastValue_snoc (key : String) (ls : List (List Tok)) (t : List Tok) :
    lastValue key (ls ++ [t]) = if t[0]? = some key.toList then t[2]? else lastValue key ls := by
  unfold lastValue linesOf
  rw [List.filter_append]
  by_cases h : t[0]? = some key.toList
  · simp [h]
  · simp [h]

theorem linesOf_snoc (key : String) (ls : List (List Tok)) (t : List Tok) :
    (linesOf key (ls ++ [t]) ≠ []) ↔ (t[0]? = some key.toList ∨ linesOf key ls ≠ []) := by
  unfold linesOf
  rw [List.filter_append]
  by_cases h : t[0]? = some key.toList
  · simp [h]
  · simp [h]

theorem allValues_snoc (keys : List String) (ls : List (List Tok)) (t : List Tok) :
    allValues keys (ls ++ [t]) = allValues keys ls ++ (if keys.any (fun k => t[0]? = some k.toList) then (t[2]?).toList else []) := by
  unfold allValues
  rw [List.filter_append, List.filterMap_append]
  congr 1
  split_ifs with h
  · rw [List.filter_cons_of_pos (by simpa using h)]
    cases h2 : t[2]? <;> simp [h2]
  · rw [List.filter_cons_of_neg (by simpa using h)]; simp

theorem configLines_snoc {V : Type} (N : NumOps V) (c : Config V) (ls : List (List Tok)) (t : List Tok) :
    configLines N c (ls ++ [t]) = (configLines N c ls).bind fun c => configLine N c t := by
  induction ls generalizing c with
  | nil => simp [configLines]
  | cons l ls ih =>
    simp only [List.cons_append, configLines]
    cases configLine N c l with
    | none => rfl
    | some c => simp [ih]

theorem opt_getD_ite {α β : Type} (p : Prop) [Decidable p] (a b : Option α) (f : α → β) (d : β) :
    (((if p then a else b).map f).getD d) = if p then (a.map f).getD d else (b.map f).getD d := by
  split_ifs <;> rfl

theorem configLine_spec {V : Type} (N : NumOps V) (ls : List (List Tok)) (t : List Tok) :
    (ShortLine t → configLine N (configMeaning N ls) t = none) ∧
      (¬ ShortLine t → configLine N (configMeaning N ls) t = some (configMeaning N (ls ++ [t]))) := by
  cases t with
  | nil =>
    refine ⟨fun h => ?_, fun _ => ?_⟩
    · obtain ⟨⟨k, _, hk⟩, _⟩ := h; simp at hk
    · simp [configLine, configMeaning, lastValue_snoc, linesOf_snoc, allValues_snoc]
  | cons k rest =>
    have hshort : ShortLine (k :: rest) ↔ (∃ key ∈ valueKeys, k = key.toList) ∧ rest[1]? = none := by
      simp only [ShortLine, List.getElem?_cons_zero, Option.some.injEq, List.length_cons, List.getElem?_eq_none_iff]
      constructor
      · rintro ⟨h1, h2⟩; exact ⟨h1, by omega⟩
      · rintro ⟨h1, h2⟩; exact ⟨h1, by omega⟩
    rw [hshort]
    have hv : (k :: rest)[2]? = rest[1]? := by simp
    simp only [configLine, onValue, onFlag, configMeaning, lastValue_snoc, linesOf_snoc, allValues_snoc, hv, List.getElem?_cons_zero,
      Option.some.injEq, valueKeys, List.mem_cons, List.not_mem_nil, or_false, exists_eq_or_imp, exists_eq_left, List.length_cons,
      Nat.add_one_ne_zero, if_false, opt_getD_ite]
    by_cases h0 : k = "INPUT_MESH_FILE".toList
    · subst h0
      cases hr : rest[1]? <;> simp (decide := true) [hr]
    by_cases h1 : k = "SIZING_FILE".toList
    · subst h1
      cases hr : rest[1]? <;> simp (decide := true) [hr]
    by_cases h2 : k = "R_MIN".toList
    · subst h2
      cases hr : rest[1]? <;> simp (decide := true) [hr]
    by_cases h3 : k = "R_MAX".toList
    · subst h3
      cases hr : rest[1]? <;> simp (decide := true) [hr]
    by_cases h4 : k = "LIP_CONST".toList
    · subst h4
      cases hr : rest[1]? <;> simp (decide := true) [hr]
    by_cases h5 : k = "VC_ANGLE".toList
    · subst h5
      cases hr : rest[1]? <;> simp (decide := true) [hr]
    by_cases h6 : k = "NUM_THREADS".toList
    · subst h6
      cases hr : rest[1]? <;> simp (decide := true) [hr]
    by_cases h7 : k = "GENERATE_VCG_FILE".toList
    · subst h7
      cases hr : rest[1]? <;> simp (decide := true) [hr]
    by_cases h8 : k = "GENERATE_EXODUS_FILE".toList
    · subst h8
      cases hr : rest[1]? <;> simp (decide := true) [hr]
    by_cases h9 : k = "GENERATE_MONITORING_POINTS".toList
    · subst h9
      cases hr : rest[1]? <;> simp (decide := true) [hr]
    by_cases h10 : k = "IMPOSE_MONITORING_POINTS".toList
    · subst h10
      cases hr : rest[1]? <;> simp (decide := true) [hr]
    by_cases h11 : k = "GENERATE_MESH_FROM_SEEDS".toList
    · subst h11
      cases hr : rest[1]? <;> simp (decide := true) [hr]
    by_cases h12 : k = "SEEDS_FILE".toList
    · subst h12
      cases hr : rest[1]? <;> simp (decide := true) [hr]
    simp only [h0, h1, h2, h3, h4, h5, h6, h7, h8, h9, h10, h11, h12, if_false, Option.bind_some, false_or, or_false, false_and, List.any_cons, List.any_nil, decide_false, Bool.false_or, Bool.or_false, Bool.false_eq_true, List.append_nil, not_false_eq_true, forall_const, false_imp_iff, true_and]

theorem configLines_none {V : Type} (N : NumOps V) (c : Config V) (ls ls' : List (List Tok)) (h : configLines N c ls = none) :
    configLines N c (ls ++ ls') = none := by
  induction ls generalizing c with
  | nil => simp [configLines] at h
  | cons l ls ih =>
    simp only [List.cons_append, configLines] at h ⊢
    cases hc : configLine N c l with
    | none => rfl
    | some c' => rw [hc] at h; simp only [Option.bind_some] at h ⊢; exact ih c' h

theorem configLines_spec {V : Type} (N : NumOps V) (ls : List (List Tok)) :
    ((∃ t ∈ ls, ShortLine t) → configLines N (Config.default N) ls = none) ∧
      ((∀ t ∈ ls, ¬ ShortLine t) → configLines N (Config.default N) ls = some (configMeaning N ls)) := by
  induction ls using List.reverseRecOn with
  | nil =>
    refine ⟨fun ⟨t, ht, _⟩ => absurd ht (by simp), fun _ => ?_⟩
    simp [configLines, Config.default, configMeaning, lastValue, linesOf, allValues]
  | append_singleton ls t ih =>
    by_cases hall : ∀ u ∈ ls, ¬ ShortLine u
    · have e := ih.2 hall
      have hstep := configLine_spec N ls t
      refine ⟨?_, ?_⟩
      · rintro ⟨u, hu, hs⟩
        rcases List.mem_append.1 hu with hu | hu
        · exact absurd hs (hall u hu)
        · rw [List.mem_singleton.1 hu] at hs
          rw [configLines_snoc, e]; exact hstep.1 hs
      · intro h
        rw [configLines_snoc, e]; exact hstep.2 (h t (by simp))
    · have hex : ∃ u ∈ ls, ShortLine u := by
        by_contra hc; exact hall fun u hu hs => hc ⟨u, hu, hs⟩
      refine ⟨fun _ => configLines_none N _ ls [t] (ih.1 hex), fun h => ?_⟩
      obtain ⟨u, hu, hs⟩ := hex
      exact absurd hs (h u (by simp [hu]))

/-- **C13.** For every configuration file: if some line with a value keyword has fewer than three words
the reader has undefined behaviour; otherwise it yields exactly `configMeaning`: the last assignment of
each scalar, the collected file names in order, and the documented default for what is not assigned. -/
theorem C13_config_meaning {V : Type} (N : NumOps V) (file : List Char) :
    ((∃ t ∈ (fileLines file).map words, ShortLine t) → readConfig N file = none) ∧
      ((∀ t ∈ (fileLines file).map words, ¬ ShortLine t) →
        readConfig N file = some (configMeaning N ((fileLines file).map words))) :=
  configLines_spec N _

/-- **C13, choice of work.** With no malformed line, `execute` reads one seeds file, one surface, or
merges all surfaces, depending only on the flag and the number of file names; with no file name at all
it has undefined behaviour. -/
theorem C13_dispatch {V : Type} (N : NumOps V) (file : List Char) (h : ∀ t ∈ (fileLines file).map words, ¬ ShortLine t) :
    let c := configMeaning N ((fileLines file).map words)
    (c.filenames = [] → dispatch N (some file) = .undefined) ∧
    (∀ f fs, c.filenames = f :: fs → c.fromSeeds = true → dispatch N (some file) = .meshFromSeeds f) ∧
    (∀ f, c.filenames = [f] → c.fromSeeds = false → dispatch N (some file) = .meshSurface f) ∧
    (∀ f g fs, c.filenames = f :: g :: fs → c.fromSeeds = false → dispatch N (some file) = .meshMerged (f :: g :: fs)) := by
  intro c
  have e := (C13_config_meaning N file).2 h
  refine ⟨fun h1 => ?_, fun f fs h1 h2 => ?_, fun f h1 h2 => ?_, fun f g fs h1 h2 => ?_⟩
  · simp only [dispatch, e]
    rw [show (configMeaning N (List.map words (fileLines file))).filenames = [] from h1]
    split_ifs <;> first | rfl | (rename_i hh; simp at hh)
  all_goals
    simp only [dispatch, e]
    rw [show (configMeaning N (List.map words (fileLines file))).filenames = _ from h1,
      show (configMeaning N (List.map words (fileLines file))).fromSeeds = _ from h2]
    simp

/-- Integer numerals for the examples. -/
def demoOps : NumOps Int :=
  { tenth := 10, twenty := 20, zero := 0, dblMax := 1000, parse := fun t => t.length, toInt := id }

-- non-vacuity: repeated keyword, unknown keyword, comment and blank line
example : readConfig demoOps "R_MAX = 123\n\n# note\nINPUT_MESH_FILE = a.obj\nR_MAX = 12\nGENERATE_VCG_FILE\n".toList =
    some { Config.default demoOps with rMax := 2, filenames := ["a.obj".toList], vcg := true } := by decide
example : readConfig demoOps "R_MAX 5\n".toList = none := by decide
example : dispatch demoOps (some "INPUT_MESH_FILE = a.obj\nINPUT_MESH_FILE = b.obj\n".toList) = .meshMerged ["a.obj".toList, "b.obj".toList] := by
  decide

/-! ## C14: command line -/

theorem dropWhile_first (pre : List String) (o : String) (rest : List String) (h : o ∉ pre) :
    (pre ++ o :: rest).dropWhile (fun a => a != o) = o :: rest := by
  induction pre with
  | nil => simp
  | cons a pre ih =>
    simp only [List.mem_cons, not_or] at h
    rw [List.cons_append, List.dropWhile_cons_of_pos (by simpa using Ne.symm h.1)]
    exact ih h.2

/-- **C14.** The complete decision table of the command line. -/
theorem C14_command_line (argv : List String) :
    ((argv = [] ∨ "-h" ∈ argv) → parseCli argv = .usageExit0) ∧
    (argv ≠ [] → "-h" ∉ argv → "-vc" ∉ argv → "-subdivision_smooth" ∉ argv → parseCli argv = .badMethodExit1) ∧
    (∀ pre f post, "-h" ∉ argv → "-vc" ∉ pre → argv = pre ++ "-vc" :: f :: post → parseCli argv = .run 1 f) ∧
    (∀ pre, "-h" ∉ argv → "-vc" ∉ pre → argv = pre ++ ["-vc"] → parseCli argv = .missingParameter) ∧
    (∀ pre f post, "-h" ∉ argv → "-vc" ∉ argv → "-subdivision_smooth" ∉ pre → argv = pre ++ "-subdivision_smooth" :: f :: post →
      parseCli argv = .run 2 f) ∧
    (∀ pre, "-h" ∉ argv → "-vc" ∉ argv → "-subdivision_smooth" ∉ pre → argv = pre ++ ["-subdivision_smooth"] →
      parseCli argv = .missingParameter) := by
  refine ⟨?_, ?_, ?_, ?_, ?_, ?_⟩
  · rintro (h | h)
    · simp [parseCli, h]
    · simp [parseCli, optionExists, h]
  · intro h0 h1 h2 h3
    simp [parseCli, optionExists, h0, h1, h2, h3]
  · intro pre f post h1 h2 h3
    have hm : "-vc" ∈ argv := by rw [h3]; simp
    have hv : optionValue argv "-vc" = some f := by rw [h3, optionValue, dropWhile_first pre _ _ h2]; rfl
    have h0 : argv ≠ [] := List.ne_nil_of_mem hm
    simp [parseCli, optionExists, h0, h1, hm, hv]
  · intro pre h1 h2 h3
    have hm : "-vc" ∈ argv := by rw [h3]; simp
    have hv : optionValue argv "-vc" = none := by rw [h3, optionValue, dropWhile_first pre _ _ h2]; rfl
    have h0 : argv ≠ [] := List.ne_nil_of_mem hm
    simp [parseCli, optionExists, h0, h1, hm, hv]
  · intro pre f post h1 h1' h2 h3
    have hm : "-subdivision_smooth" ∈ argv := by rw [h3]; simp
    have hv : optionValue argv "-subdivision_smooth" = some f := by rw [h3, optionValue, dropWhile_first pre _ _ h2]; rfl
    have h0 : argv ≠ [] := List.ne_nil_of_mem hm
    simp [parseCli, optionExists, h0, h1, h1', hm, hv]
  · intro pre h1 h1' h2 h3
    have hm : "-subdivision_smooth" ∈ argv := by rw [h3]; simp
    have hv : optionValue argv "-subdivision_smooth" = none := by rw [h3, optionValue, dropWhile_first pre _ _ h2]; rfl
    have h0 : argv ≠ [] := List.ne_nil_of_mem hm
    simp [parseCli, optionExists, h0, h1, h1', hm, hv]

-- non-vacuity
example : parseCli ["-x", "-vc", "a.in", "-vc", "b.in"] = .run 1 "a.in" := by decide
example : parseCli ["-vc", "a.in", "-h"] = .usageExit0 := by decide
example : parseCli ["-subdivision_smooth", "-vc"] = .missingParameter := by decide

/-! ## C15: merging surfaces -/

/-- Number of points in the files before file `k`. -/
def pointsBefore {α : Type} (files : List (Surface α)) (k : Nat) : Nat := ((files.take k).map (fun s => s.points.length)).sum
/-- Number of faces in the files before file `k`. -/
def facesBefore {α : Type} (files : List (Surface α)) (k : Nat) : Nat := ((files.take k).map (fun s => s.faces.length)).sum

theorem mergeSurfaces_snoc {α : Type} (files : List (Surface α)) (s : Surface α) :
    mergeSurfaces (files ++ [s]) = mergeStep (mergeSurfaces files) s := by
  simp [mergeSurfaces]

theorem merge_points {α : Type} (files : List (Surface α)) : (mergeSurfaces files).points = (files.map Surface.points).flatten := by
  induction files using List.reverseRecOn with
  | nil => rfl
  | append_singleton files s ih => rw [mergeSurfaces_snoc]; simp [mergeStep, ih]

theorem pointsBefore_all {α : Type} (files : List (Surface α)) : pointsBefore files files.length = (mergeSurfaces files).points.length := by
  simp [pointsBefore, merge_points, List.length_flatten, Function.comp_def]

theorem facesBefore_all {α : Type} (files : List (Surface α)) : facesBefore files files.length = (files.map (fun s => s.faces.length)).sum := by
  simp [facesBefore]

theorem merge_faces_length {α : Type} (files : List (Surface α)) : (mergeSurfaces files).faces.length = facesBefore files files.length := by
  rw [facesBefore_all]
  induction files using List.reverseRecOn with
  | nil => rfl
  | append_singleton files s ih =>
    rw [mergeSurfaces_snoc]
    simp [mergeStep, ih]

/-- **C15.** The merged points are the concatenation of the files' points; the merged mesh has exactly
the sum of the face counts; and face `f` of file `k` appears at its place with each corner referring to
the same coordinates as in its own file. -/
theorem C15_merge_keeps_faces {α : Type} (files : List (Surface α)) :
    (mergeSurfaces files).points = (files.map Surface.points).flatten ∧
    (mergeSurfaces files).faces.length = (files.map (fun s => s.faces.length)).sum ∧
    ∀ (k : Nat) (s : Surface α) (j : Nat) (f : Nat × Nat × Nat), files[k]? = some s → s.faces[j]? = some f →
      f.1 < s.points.length → f.2.1 < s.points.length → f.2.2 < s.points.length →
      ∃ g, (mergeSurfaces files).faces[facesBefore files k + j]? = some g ∧
        (mergeSurfaces files).points[g.1]? = s.points[f.1]? ∧ (mergeSurfaces files).points[g.2.1]? = s.points[f.2.1]? ∧
        (mergeSurfaces files).points[g.2.2]? = s.points[f.2.2]? := by
  refine ⟨merge_points files, ?_, ?_⟩
  · rw [merge_faces_length]; simp [facesBefore]
  · induction files using List.reverseRecOn with
    | nil => intro k s j f h; simp at h
    | append_singleton files s0 ih =>
      intro k s j f hk hj h1 h2 h3
      rw [mergeSurfaces_snoc]
      by_cases hlt : k < files.length
      · rw [List.getElem?_append_left hlt] at hk
        obtain ⟨g, hg, g1, g2, g3⟩ := ih k s j f hk hj h1 h2 h3
        have hfb : facesBefore (files ++ [s0]) k = facesBefore files k := by
          simp [facesBefore, List.take_append_of_le_length (Nat.le_of_lt hlt)]
        have look : ∀ {i n : Nat}, n < s.points.length → (mergeSurfaces files).points[i]? = s.points[n]? →
            ((mergeSurfaces files).points ++ s0.points)[i]? = s.points[n]? := by
          intro i n hn he
          rw [← he, List.getElem?_append_left]
          by_contra hc
          rw [List.getElem?_eq_none (by omega), List.getElem?_eq_getElem hn] at he
          cases he
        refine ⟨g, ?_, look h1 g1, look h2 g2, look h3 g3⟩
        simp only [mergeStep, hfb]
        rw [List.getElem?_append_left, hg]
        by_contra hc
        rw [List.getElem?_eq_none (by omega)] at hg
        cases hg
      · have hkl : k = files.length := by
          have := (List.getElem?_eq_some_iff.1 hk).1
          simp at this; omega
        subst hkl
        have hs : s = s0 := by
          rw [List.getElem?_append_right (Nat.le_refl _)] at hk; simp at hk; exact hk.symm
        subst hs
        have hfb : facesBefore (files ++ [s]) files.length = (mergeSurfaces files).faces.length := by
          rw [merge_faces_length]; simp [facesBefore]
        refine ⟨shiftFace (mergeSurfaces files).points.length f, ?_, ?_, ?_, ?_⟩
        · simp only [mergeStep, hfb]
          rw [List.getElem?_append_right (by omega)]
          simp [hj]
        all_goals
          simp only [mergeStep, shiftFace]
          rw [List.getElem?_append_right (by omega)]
          congr 1; omega

-- non-vacuity: two files, the second one's face is shifted
example : mergeSurfaces [⟨["a", "b", "c"], [(0, 1, 2)]⟩, ⟨["d", "e", "f"], [(2, 1, 0)]⟩] =
    (⟨["a", "b", "c", "d", "e", "f"], [(0, 1, 2), (5, 4, 3)]⟩ : Surface String) := rfl

/-! ## C16: seed and sphere files -/

theorem countSeeds_spec (ls : List (List Char)) : countSeeds ls = some ls.tail.length := by
  have key : ∀ (l : List (List Char)) (n : Nat), countLines l n = some (n + l.length) := by
    intro l
    induction l with
    | nil => intro n; rfl
    | cons a l ih =>
      intro n
      obtain ⟨t, e, hne⟩ := getTokens_isSome a ','
      have : ¬ t.length = 0 := by simpa using hne
      simp only [countLines, e, this, if_false, ih, List.length_cons]
      congr 1; omega
  rw [countSeeds, key]; simp

/-- The `i`-th comma separated field of a line. -/
def field (l : List Char) (i : Nat) : Option Tok := (getTokens l ',').bind (fun t => t[i]?)

/-- The record on a line, when it has the five fields. -/
def seedOnLine {V : Type} (parse : Tok → V) (parseNat : Tok → Nat) (l : List Char) (s : Seed V) : Prop :=
  ∃ a b c d e, field l 0 = some a ∧ field l 1 = some b ∧ field l 2 = some c ∧ field l 3 = some d ∧ field l 4 = some e ∧
    s = { x := parse a, y := parse b, z := parse c, sizing := parse d, region := parseNat e }

theorem fillSeeds_spec {V : Type} (parse : Tok → V) (parseNat : Tok → Nat) (cap : Nat) (ls : List (List Char)) (acc : List (Seed V))
    (hcap : acc.length + ls.length ≤ cap) :
    ((∃ l ∈ ls, l.count ',' < 4) → fillSeeds parse parseNat cap ls acc = none) ∧
      ((∀ l ∈ ls, 4 ≤ l.count ',') → ∃ ss, fillSeeds parse parseNat cap ls acc = some (acc ++ ss) ∧
        List.Forall₂ (seedOnLine parse parseNat) ls ss) := by
  induction ls generalizing acc with
  | nil => exact ⟨fun ⟨l, hl, _⟩ => absurd hl (by simp), fun _ => ⟨[], by simp [fillSeeds], List.Forall₂.nil⟩⟩
  | cons l ls ih =>
    obtain ⟨t, e, hlen, _, _⟩ := C12_tokens_lossless l ','
    have hne : ¬ t.length = 0 := by omega
    simp only [List.length_cons] at hcap
    by_cases h4 : 4 ≤ l.count ','
    · have g0 := List.getElem?_eq_getElem (l := t) (i := 0) (by omega)
      have g1 := List.getElem?_eq_getElem (l := t) (i := 1) (by omega)
      have g2 := List.getElem?_eq_getElem (l := t) (i := 2) (by omega)
      have g3 := List.getElem?_eq_getElem (l := t) (i := 3) (by omega)
      have g4 := List.getElem?_eq_getElem (l := t) (i := 4) (by omega)
      set s : Seed V := { x := parse t[0], y := parse t[1], z := parse t[2], sizing := parse t[3], region := parseNat t[4] } with hs
      have hso : seedOfTokens parse parseNat t = some s := by simp only [seedOfTokens, g0, g1, g2, g3, g4, hs]
      have hstep : fillSeeds parse parseNat cap (l :: ls) acc = fillSeeds parse parseNat cap ls (acc ++ [s]) := by
        simp only [fillSeeds, e, hne, if_false, hso]; rw [if_pos (by omega)]
      obtain ⟨i1, i2⟩ := ih (acc ++ [s]) (by simp; omega)
      rw [hstep]
      refine ⟨?_, ?_⟩
      · rintro ⟨m, hm, hc⟩
        rcases List.mem_cons.1 hm with rfl | hm
        · omega
        · exact i1 ⟨m, hm, hc⟩
      · intro h
        obtain ⟨ss, e1, e2⟩ := i2 (fun m hm => h m (by simp [hm]))
        refine ⟨s :: ss, by rw [e1]; simp, List.Forall₂.cons ?_ e2⟩
        exact ⟨t[0], t[1], t[2], t[3], t[4], by simp [field, e, g0], by simp [field, e, g1], by simp [field, e, g2],
          by simp [field, e, g3], by simp [field, e, g4], rfl⟩
    · have hso : seedOfTokens parse parseNat t = none := by
        have : t[4]? = none := List.getElem?_eq_none (by omega)
        unfold seedOfTokens; rw [this]
        cases t[0]? <;> cases t[1]? <;> cases t[2]? <;> cases t[3]? <;> rfl
      refine ⟨fun _ => by simp only [fillSeeds, e, hne, if_false, hso], fun h => absurd (h l (by simp)) h4⟩

/-- **C16.** A seeds file all of whose data lines have at least four commas yields one seed per data line,
in order, made of that line's fields; if some data line has fewer (in particular an empty line), the read
is out of range: undefined behaviour. -/
theorem C16_seed_file {V : Type} (parse : Tok → V) (parseNat : Tok → Nat) (file : List Char) :
    ((∀ l ∈ (fileLines file).tail, 4 ≤ l.count ',') →
      ∃ ss, readSeeds parse parseNat file = some ss ∧ List.Forall₂ (seedOnLine parse parseNat) (fileLines file).tail ss) ∧
    ((∃ l ∈ (fileLines file).tail, l.count ',' < 4) → readSeeds parse parseNat file = none) := by
  have h := fillSeeds_spec parse parseNat (fileLines file).tail.length (fileLines file).tail [] (by simp)
  simp only [readSeeds, countSeeds_spec]
  exact ⟨fun hh => by simpa using h.2 hh, h.1⟩

-- non-vacuity
example : readSeeds List.length List.length "x,y,z,r,id\n1,2,3,44,555\n1,2,3,4,5,6\n".toList = some [⟨1, 1, 1, 2, 3⟩, ⟨1, 1, 1, 1, 1⟩] := by
  decide
example : readSeeds List.length List.length "x,y,z,r,id\n1,2,3,44,555\n\n".toList = none := by decide

/-- The sphere record on a line. -/
def sphereOnLine {V : Type} (parse : Tok → V) (dim : Nat) (l : List Char) : List V :=
  ((getTokens l ',').getD []).take (dim + 1) |>.map parse

theorem loadSpheresLoop_spec {V : Type} (parse : Tok → V) (dim : Nat) (ls : List (List Char)) (acc : List (List V)) (cap : Nat)
    (hcap : acc.length < cap) :
    ∃ cap', loadSpheresLoop parse dim ls (acc, cap) =
        some (acc ++ (ls.filter (fun l => decide (dim ≤ l.count ','))).map (sphereOnLine parse dim), cap') := by
  induction ls generalizing acc cap with
  | nil => exact ⟨cap, by simp [loadSpheresLoop]⟩
  | cons l ls ih =>
    obtain ⟨t, e, hlen, _, _⟩ := C12_tokens_lossless l ','
    by_cases h : dim ≤ l.count ','
    · have hn : ¬ t.length ≤ dim := by omega
      simp only [loadSpheresLoop, e, hn, if_false, hcap, if_true]
      obtain ⟨cap', e'⟩ := ih (acc ++ [(t.take (dim + 1)).map parse])
        (if (acc ++ [(t.take (dim + 1)).map parse]).length = cap then 2 * cap else cap) (by
          split_ifs with hh
          · simp at hh ⊢; omega
          · simp at hh ⊢; omega)
      refine ⟨cap', ?_⟩
      rw [e', List.filter_cons_of_pos (by simpa using h)]
      simp [sphereOnLine, e]
    · have hn : t.length ≤ dim := by omega
      simp only [loadSpheresLoop, e, hn, if_true]
      rw [List.filter_cons_of_neg (by simpa using h)]
      exact ih acc cap hcap

/-- **C16, sphere files.** Loading a spheres file never leaves the growing array; it yields, in order, one
sphere for each data line with at least `dim + 1` fields and ignores the others. -/
theorem C16_sphere_file {V : Type} (parse : Tok → V) (dim : Nat) (file : List Char) :
    loadSpheres parse dim file =
      some (((fileLines file).tail.filter (fun l => decide (dim ≤ l.count ','))).map (sphereOnLine parse dim)) := by
  obtain ⟨cap', e⟩ := loadSpheresLoop_spec parse dim (fileLines file).tail [] 100 (by simp)
  simp [loadSpheres, e]

example : loadSpheres List.length 2 "x,y,r\n1,22,333\n\n1,2\n4,5,6,7".toList = some [[1, 2, 3], [1, 1, 1]] := by decide

/-! ## C65: surface (OBJ) files -/

/-- The line is a well-formed vertex or face line, or neither a vertex nor a face line. -/
def ObjLineOk (index : Tok → Option Nat) (t : List Tok) : Prop :=
  (t[0]? = some ['v'] → 4 ≤ t.length) ∧
    (t[0]? = some ['f'] → ∃ a b c rest, t = ['f'] :: a :: b :: c :: rest ∧ (index (cutSlash a)).isSome ∧ (index (cutSlash b)).isSome ∧
      (index (cutSlash c)).isSome)

/-- Points described by the lines. -/
def objPoints {V : Type} (parse : Tok → V) (ls : List (List Tok)) : List (V × V × V) :=
  ls.filterMap fun t => match t with
    | ['v'] :: a :: b :: c :: _ => some (parse a, parse b, parse c)
    | _ => none

/-- Faces described by the lines. -/
def objFaces (index : Tok → Option Nat) (ls : List (List Tok)) : List (Nat × Nat × Nat) :=
  ls.filterMap fun t => match t with
    | ['f'] :: a :: b :: c :: _ => some ((index (cutSlash a)).getD 0, (index (cutSlash b)).getD 0, (index (cutSlash c)).getD 0)
    | _ => none

theorem objLine_ok_cases {V : Type} (parse : Tok → V) (index : Tok → Option Nat) (t : List Tok) :
    (¬ ObjLineOk index t ∧ objLine parse index t = none) ∨
    (ObjLineOk index t ∧ ((∃ a b c rest, t = ['v'] :: a :: b :: c :: rest ∧ objLine parse index t = some (.vertex (parse a) (parse b) (parse c))) ∨
      (∃ a b c rest i j k, t = ['f'] :: a :: b :: c :: rest ∧ index (cutSlash a) = some i ∧ index (cutSlash b) = some j ∧
        index (cutSlash c) = some k ∧ objLine parse index t = some (.face i j k)) ∨
      (t[0]? ≠ some ['v'] ∧ t[0]? ≠ some ['f'] ∧ objLine parse index t = some .none))) := by
  by_cases hv : t[0]? = some ['v']
  · match t, hv with
    | [_], hv => left; simp at hv; subst hv; exact ⟨by simp [ObjLineOk], by simp [objLine]⟩
    | [_, _], hv => left; simp at hv; subst hv; exact ⟨by simp [ObjLineOk], by simp [objLine]⟩
    | [_, _, _], hv => left; simp at hv; subst hv; exact ⟨by simp [ObjLineOk], by simp [objLine]⟩
    | x :: a :: b :: c :: rest, hv =>
      right; simp at hv; subst hv
      exact ⟨by simp [ObjLineOk], Or.inl ⟨a, b, c, rest, rfl, by simp [objLine]⟩⟩
  · by_cases hf : t[0]? = some ['f']
    · match t, hf with
      | [_], hf => left; simp at hf; subst hf; exact ⟨by simp [ObjLineOk], by simp [objLine]⟩
      | [_, _], hf => left; simp at hf; subst hf; exact ⟨by simp [ObjLineOk], by simp [objLine]⟩
      | [_, _, _], hf => left; simp at hf; subst hf; exact ⟨by simp [ObjLineOk], by simp [objLine]⟩
      | x :: a :: b :: c :: rest, hf =>
        simp at hf; subst hf
        cases ha : index (cutSlash a) with
        | none => left; exact ⟨by simp [ObjLineOk, ha], by simp [objLine, ha]⟩
        | some i =>
          cases hb : index (cutSlash b) with
          | none => left; exact ⟨by simp [ObjLineOk, hb], by simp [objLine, ha, hb]⟩
          | some j =>
            cases hc : index (cutSlash c) with
            | none => left; exact ⟨by simp [ObjLineOk, hc], by simp [objLine, ha, hb, hc]⟩
            | some k =>
              right
              exact ⟨by simp [ObjLineOk, ha, hb, hc], Or.inr (Or.inl ⟨a, b, c, rest, i, j, k, rfl, ha, hb, hc, by simp [objLine, ha, hb, hc]⟩)⟩
    · right
      exact ⟨⟨fun h => absurd h hv, fun h => absurd h hf⟩, Or.inr (Or.inr ⟨hv, hf, by simp [objLine, hv, hf]⟩)⟩

theorem objFill_spec {V : Type} (parse : Tok → V) (index : Tok → Option Nat) (np nf : Nat) (ls : List (List Tok)) (s : Surface (V × V × V))
    (hp : s.points.length + (objCount ls).1 ≤ np) (hf : s.faces.length + (objCount ls).2 ≤ nf) :
    ((∃ t ∈ ls, ¬ ObjLineOk index t) → objFill parse index np nf ls s = none) ∧
      ((∀ t ∈ ls, ObjLineOk index t) → objFill parse index np nf ls s =
        some { points := s.points ++ objPoints parse ls, faces := s.faces ++ objFaces index ls }) := by
  induction ls generalizing s with
  | nil => exact ⟨fun ⟨t, ht, _⟩ => absurd ht (by simp), fun _ => by simp [objFill, objPoints, objFaces]⟩
  | cons t ls ih =>
    have step : ∀ (s' : Surface (V × V × V)), objFill parse index np nf (t :: ls) s = objFill parse index np nf ls s' →
        s'.points.length + (objCount ls).1 ≤ np → s'.faces.length + (objCount ls).2 ≤ nf → ObjLineOk index t →
        s'.points ++ objPoints parse ls = s.points ++ objPoints parse (t :: ls) → s'.faces ++ objFaces index ls = s.faces ++ objFaces index (t :: ls) →
        ((∃ t' ∈ t :: ls, ¬ ObjLineOk index t') → objFill parse index np nf (t :: ls) s = none) ∧
        ((∀ t' ∈ t :: ls, ObjLineOk index t') → objFill parse index np nf (t :: ls) s =
          some { points := s.points ++ objPoints parse (t :: ls), faces := s.faces ++ objFaces index (t :: ls) }) := by
      intro s' e h1 h2 hok e1 e2
      obtain ⟨i1, i2⟩ := ih s' h1 h2
      rw [e, ← e1, ← e2]
      refine ⟨?_, fun h => i2 (fun t' ht' => h t' (by simp [ht']))⟩
      rintro ⟨t', ht', hb⟩
      rcases List.mem_cons.1 ht' with rfl | ht'
      · exact absurd hok hb
      · exact i1 ⟨t', ht', hb⟩
    rcases objLine_ok_cases parse index t with ⟨hb, e⟩ | ⟨hok, ⟨a, b, c, rest, rfl, e⟩ | ⟨a, b, c, rest, i, j, k, rfl, ha, hb', hc, e⟩ | ⟨hv, hf', e⟩⟩
    · exact ⟨fun _ => by simp [objFill, e], fun h => absurd (h t (by simp)) hb⟩
    · simp [objCount] at hp hf
      refine step { s with points := s.points ++ [(parse a, parse b, parse c)] } ?_ (by simp; omega) hf hok (by simp [objPoints]) (by simp [objFaces])
      simp only [objFill, e]; rw [if_pos (by omega)]
    · simp [objCount] at hp hf
      refine step { s with faces := s.faces ++ [(i, j, k)] } ?_ hp (by simp; omega) hok (by simp [objPoints]) (by simp [objFaces, ha, hb', hc])
      simp only [objFill, e]; rw [if_pos (by omega)]
    · have hp0 : objPoints parse (t :: ls) = objPoints parse ls := by
        simp only [objPoints, List.filterMap_cons]
        split
        · rfl
        · rename_i h; split at h <;> simp_all
      have hf0 : objFaces index (t :: ls) = objFaces index ls := by
        simp only [objFaces, List.filterMap_cons]
        split
        · rfl
        · rename_i h; split at h <;> simp_all
      simp only [objCount, hv, hf', if_false] at hp hf
      refine step s ?_ hp hf hok (by rw [hp0]) (by rw [hf0])
      simp only [objFill, e]

/-- **C65.** An OBJ file in which every vertex line has three coordinates and every face line three valid
corner references yields exactly the points and faces of those lines, in order (further corners and
texture/normal references are ignored); any malformed vertex or face line is undefined behaviour. -/
theorem C65_obj_file {V : Type} (parse : Tok → V) (index : Tok → Option Nat) (file : List Char) :
    ((∀ t ∈ (fileLines file).map words, ObjLineOk index t) → readObj parse index file =
        some { points := objPoints parse ((fileLines file).map words), faces := objFaces index ((fileLines file).map words) }) ∧
    ((∃ t ∈ (fileLines file).map words, ¬ ObjLineOk index t) → readObj parse index file = none) := by
  have h := objFill_spec parse index (objCount ((fileLines file).map words)).1 (objCount ((fileLines file).map words)).2
    ((fileLines file).map words) { points := [], faces := [] } (by simp) (by simp)
  exact ⟨fun hh => by simpa [readObj] using h.2 hh, h.1⟩

/-- **C65, corner references.** Of a corner reference only the part before the first slash is used. -/
theorem C65_corner_reference (r s : List Char) (h : '/' ∉ r) : cutSlash r = r ∧ cutSlash (r ++ '/' :: s) = r := by
  have hr : ∀ c ∈ r, decide (c ≠ '/') = true := fun c hc => by
    simp only [decide_eq_true_eq]; rintro rfl; exact h hc
  refine ⟨?_, ?_⟩
  · unfold cutSlash
    have := List.takeWhile_append_of_pos (l₂ := []) hr
    simpa using this
  · unfold cutSlash
    rw [List.takeWhile_append_of_pos hr, List.takeWhile_cons]
    simp

example : cutSlash "12/7/3".toList = "12".toList := (C65_corner_reference "12".toList "7/3".toList (by decide)).2

/-! ## Lines and words of a text file (used by C13, C16 and C65) -/

theorem linesGo_append (l rest : List Char) (cur : Tok) (h : '\n' ∉ l) : linesGo (l ++ '\n' :: rest) cur = (cur ++ l) :: linesGo rest [] := by
  induction l generalizing cur with
  | nil => simp [linesGo]
  | cons c l ih =>
    simp only [List.mem_cons, not_or] at h
    simp only [List.cons_append, linesGo, if_neg (fun e => h.1 (Eq.symm e))]
    rw [ih _ h.2]
    simp

theorem linesGo_last (l : List Char) (cur : Tok) (h : '\n' ∉ l) : linesGo l cur = if cur ++ l = [] then [] else [cur ++ l] := by
  induction l generalizing cur with
  | nil => simp [linesGo]
  | cons c l ih =>
    simp only [List.mem_cons, not_or] at h
    simp only [linesGo, if_neg (fun e => h.1 (Eq.symm e))]
    rw [ih _ h.2]
    simp

/-- **C13/C16/C65, lines.** A file made of newline-terminated lines, with or without a last unterminated
line, is read back as those lines. -/
theorem C13_lines (ls : List (List Char)) (last : List Char) (h : ∀ l ∈ ls, '\n' ∉ l) (hl : '\n' ∉ last) :
    fileLines (ls.flatMap (fun l => l ++ ['\n']) ++ last) = ls ++ (if last = [] then [] else [last]) := by
  unfold fileLines
  induction ls with
  | nil => simpa using linesGo_last last [] hl
  | cons l ls ih =>
    have e : (l :: ls).flatMap (fun l => l ++ ['\n']) ++ last = l ++ '\n' :: (ls.flatMap (fun l => l ++ ['\n']) ++ last) := by simp
    rw [e, linesGo_append l _ [] (h l (by simp)), ih (fun x hx => h x (by simp [hx]))]
    simp

example : fileLines "a b\n\nc".toList = ["a b".toList, [], "c".toList] :=
  C13_lines ["a b".toList, []] "c".toList (by decide) (by decide)

theorem wordsGo_space (sp rest : List Char) (h : ∀ c ∈ sp, isWs c = true) : wordsGo (sp ++ rest) [] = wordsGo rest [] := by
  induction sp with
  | nil => rfl
  | cons c sp ih =>
    simp only [List.cons_append, wordsGo, h c (by simp), if_true]
    exact ih (fun x hx => h x (by simp [hx]))

theorem wordsGo_word (w rest : List Char) (cur : Tok) (h : ∀ c ∈ w, isWs c = false) : wordsGo (w ++ rest) cur = wordsGo rest (cur ++ w) := by
  induction w generalizing cur with
  | nil => simp
  | cons c w ih =>
    simp only [List.cons_append, wordsGo, h c (by simp)]
    simp only [Bool.false_eq_true, if_false]
    rw [ih _ (fun x hx => h x (by simp [hx]))]
    simp

/-- **C13/C65, words.** A line that consists of words (non-empty, without white space) with non-empty white
space after each of them, perhaps white space in front and perhaps a last word at the end, is split into
exactly those words. -/
theorem C13_words (front : List Char) (ws : List (List Char × List Char)) (last : List Char) (hf : ∀ c ∈ front, isWs c = true)
    (hw : ∀ p ∈ ws, p.1 ≠ [] ∧ p.2 ≠ [] ∧ (∀ c ∈ p.1, isWs c = false) ∧ (∀ c ∈ p.2, isWs c = true)) (hl : ∀ c ∈ last, isWs c = false) :
    words (front ++ (ws.flatMap (fun p => p.1 ++ p.2) ++ last)) = ws.map Prod.fst ++ (if last = [] then [] else [last]) := by
  unfold words
  rw [wordsGo_space _ _ hf]
  clear hf
  induction ws with
  | nil =>
    have := wordsGo_word last [] [] hl
    simp only [List.append_nil, List.nil_append] at this
    simp [this, wordsGo]
  | cons p ws ih =>
    obtain ⟨h1, h2, h3, h4⟩ := hw p (by simp)
    have e : (p :: ws).flatMap (fun p => p.1 ++ p.2) ++ last = p.1 ++ (p.2 ++ (ws.flatMap (fun p => p.1 ++ p.2) ++ last)) := by simp
    rw [e, wordsGo_word _ _ _ h3]
    obtain ⟨c, sp, hsp⟩ := List.exists_cons_of_ne_nil h2
    rw [hsp] at h4 ⊢
    simp only [List.cons_append, List.nil_append, wordsGo, h4 c (by simp), if_true, if_neg h1]
    rw [wordsGo_space _ _ (fun x hx => h4 x (by simp [hx])), ih (fun x hx => hw x (by simp [hx]))]
    simp

/-- White space is what the C library says it is. -/
theorem C13_white_space (c : Char) : isWs c = true ↔ c.toNat = 32 ∨ (9 ≤ c.toNat ∧ c.toNat ≤ 13) := by
  have key : ∀ n : Nat, (h : n < 128) → (c = Char.ofNat n ↔ c.toNat = n) := by
    intro n h
    constructor
    · rintro rfl
      interval_cases n <;> rfl
    · intro e
      rw [← e]; simp
  have e1 : (' ' : Char) = Char.ofNat 32 := rfl
  have e2 : ('\t' : Char) = Char.ofNat 9 := rfl
  have e3 : ('\n' : Char) = Char.ofNat 10 := rfl
  have e4 : ('\r' : Char) = Char.ofNat 13 := rfl
  simp only [isWs, Bool.or_eq_true, beq_iff_eq, e1, e2, e3, e4]
  rw [key 32 (by omega), key 9 (by omega), key 10 (by omega), key 13 (by omega), key 11 (by omega), key 12 (by omega)]
  omega

example : words "  R_MIN =\t0.5 ".toList = ["R_MIN".toList, "=".toList, "0.5".toList] := by decide

example : (readObj List.length (fun t => some t.length) "v 1 22 333\nvn 0 0 1\nf 1/4/5 22 333 4444\n".toList).map (fun s => (s.points, s.faces)) =
    some ([(1, 2, 3)], [(1, 2, 3)]) := by decide

end VoroCrust
