import Verif.Model.SphereFile
import Verif.Props.TreeFile
import Verif.Props.Explicit
import Mathlib.Logic.Equiv.Nat

/-! # Property C116: the files of seeds and of monitoring points read back -/

namespace VoroCrust

section
variable {V : Type}

theorem rowsFrom_spec {α : Type} (row : Nat → Option (List Char)) (l : List α) (lineOf : α → List Char) (h : ∀ i a, l[i]? = some a → row i = some (lineOf a)) :
    ∀ n i, i + n = l.length → rowsFrom row n i = some ((l.drop i).flatMap fun a => lineOf a ++ ['\n']) := by
  intro n
  induction n with
  | zero =>
    intro i hi
    rw [List.drop_eq_nil_of_le (by omega)]
    rfl
  | succ n ih =>
    intro i hi
    have hl : i < l.length := by omega
    have e : (l.drop i).flatMap (fun a => lineOf a ++ ['\n']) = lineOf l[i] ++ '\n' :: (l.drop (i + 1)).flatMap fun a => lineOf a ++ ['\n'] := by
      rw [List.drop_eq_getElem_cons hl, List.flatMap_cons, List.append_assoc]
      rfl
    simp only [rowsFrom, h i l[i] (List.getElem?_eq_getElem hl), ih (i + 1) (by omega), e]

theorem drop_flatMap_len {α β : Type} (f : α → List β) (k : Nat) : ∀ (l : List α) (i : Nat), (∀ a ∈ l, (f a).length = k) → (l.flatMap f).drop (i * k) = (l.drop i).flatMap f := by
  intro l
  induction l with
  | nil => intro i _; simp
  | cons a l ih =>
    intro i h
    cases i with
    | zero => simp
    | succ i =>
      have ha := h a (by simp)
      rw [List.flatMap_cons, Nat.succ_mul, Nat.add_comm, ← List.drop_drop, List.drop_append_of_le_length (by omega), List.drop_eq_nil_of_le (as := f a) (by omega), List.nil_append,
        ih i fun b hb => h b (by simp [hb]), List.drop_succ_cons]

theorem sphereNumbers_row {α : Type} (showV : V → List Char) (f : α → List V) (k : Nat) (l : List α) (hf : ∀ a ∈ l, (f a).length = k + 1) (i : Nat) (a : α) (hi : l[i]? = some a) :
    ∃ c cs, f a = c :: cs ∧ sphereNumbers showV (l.flatMap f) (i * (k + 1)) k = some (showV c ++ sepAll showV cs) := by
  obtain ⟨hl, rfl⟩ := List.getElem?_eq_some_iff.1 hi
  have hm : (f l[i]).length = k + 1 := hf _ (List.getElem_mem hl)
  obtain ⟨c, cs, e⟩ : ∃ c cs, f l[i] = c :: cs := by
    cases h : f l[i] with
    | nil => rw [h] at hm; simp at hm
    | cons c cs => exact ⟨c, cs, rfl⟩
  refine ⟨c, cs, e, ?_⟩
  have hr : readN ((l.flatMap f).drop (i * (k + 1))) (k + 1) = some (c :: cs) := by
    rw [drop_flatMap_len f (k + 1) l i hf, List.drop_eq_getElem_cons hl, List.flatMap_cons, e]
    rw [e] at hm
    have hm' : (c :: cs).length = k + 1 := hm
    refine readN_some.2 ⟨by rw [List.length_append]; omega, ?_⟩
    rw [List.take_append_of_le_length (by omega), List.take_of_length_le (by omega)]
  simp only [sphereNumbers, hr]

theorem not_mem_sepAll {α : Type} (shw : α → List Char) (h : ∀ a, '\n' ∉ shw a) (l : List α) : '\n' ∉ sepAll shw l := by
  induction l with
  | nil => exact List.not_mem_nil
  | cons a l ih =>
    intro hm
    rw [sepAll] at hm
    rcases List.mem_cons.1 hm with h1 | hm
    · exact absurd h1 (by decide)
    rcases List.mem_cons.1 hm with h1 | hm
    · exact absurd h1 (by decide)
    rcases List.mem_append.1 hm with h1 | h1
    · exact h a h1
    · exact ih h1

theorem not_mem_append3 {c : Char} {a b d : List Char} (h1 : c ∉ a) (h2 : c ∉ b) (h3 : c ∉ d) : c ∉ a ++ b ++ d := by simp [h1, h2, h3]

theorem header_line {showN : Nat → List Char} (hN : ∀ n, '\n' ∉ showN n) (dim : Nat) : '\n' ∉ sphereHeader showN dim := by
  unfold sphereHeader
  have h1 : '\n' ∉ "coord".toList := by decide
  refine not_mem_append3 (by decide) (not_mem_sepAll _ (fun i => ?_) _) (by decide)
  exact not_mem_append3 (a := ['x']) (by decide) (hN _) h1

theorem joinWith_line (ts : List Tok) (h : ∀ t ∈ ts, '\n' ∉ t) : '\n' ∉ joinWith ',' ts := by
  induction ts with
  | nil => simp [joinWith]
  | cons a ts ih =>
    by_cases hts : ts = []
    · subst hts
      simpa [joinWith] using h a (by simp)
    · rw [joinWith_cons _ _ _ hts]
      simp only [List.mem_append, List.mem_cons, not_or]
      exact ⟨h a (by simp), by decide, ih fun t ht => h t (by simp [ht])⟩

/-- The lines of a file that is saved from rows. -/
theorem saved_lines {α : Type} {showN : Nat → List Char} (hN : ∀ n, '\n' ∉ showN n) (dim : Nat) (l : List α) (toks : α → List Tok) (ht : ∀ a ∈ l, ∀ t ∈ toks a, '\n' ∉ t) :
    fileLines (sphereHeader showN dim ++ '\n' :: l.flatMap fun a => joinWith ',' (toks a) ++ ['\n']) = sphereHeader showN dim :: l.map fun a => joinWith ',' (toks a) := by
  have h := C13_lines (sphereHeader showN dim :: l.map fun a => joinWith ',' (toks a)) [] (by
    intro x hx
    rcases List.mem_cons.1 hx with rfl | hx
    · exact header_line hN dim
    · obtain ⟨a, ha, rfl⟩ := List.mem_map.1 hx
      exact joinWith_line _ (ht a ha)) (by simp)
  simpa [List.flatMap_map] using h

theorem comma_line_free {showV : V → List Char} {showN : Nat → List Char} {parse : Tok → V} {parseN : Tok → Nat} {zero : V} {rd : V → V} (P : Printing showV showN parse parseN zero rd)
    (c : V) (cs : List V) (rs : List Nat) : ∀ t ∈ showV c :: cs.map (fun v => ' ' :: showV v) ++ rs.map (fun v => ' ' :: showN v), ',' ∉ t ∧ '\n' ∉ t := by
  intro t ht
  rcases List.mem_append.1 ht with h | h
  · rcases List.mem_cons.1 h with rfl | h
    · exact ⟨P.commaV c, P.lineV c⟩
    · obtain ⟨v, -, rfl⟩ := List.mem_map.1 h
      exact ⟨mem_space (by decide) (P.commaV v), mem_space (by decide) (P.lineV v)⟩
  · obtain ⟨v, -, rfl⟩ := List.mem_map.1 h
    exact ⟨mem_space (by decide) (P.commaN v), mem_space (by decide) (P.lineN v)⟩

/-- The seeds as the file keeps them. -/
def printedSeed (rd : V → V) (s : Seed V) : Seed V := { x := rd s.x, y := rd s.y, z := rd s.z, sizing := rd s.sizing, region := s.region }

/-- **C116, seeds.** The seeds written to `seeds.csv` and read again by `read_seeds_csv` are the same seeds in the same order, with their sizes and regions, the numbers as printed. -/
theorem C116_seeds_read_back {showV : V → List Char} {showN : Nat → List Char} {parse : Tok → V} {parseN : Tok → Nat} {zero : V} {rd : V → V} (P : Printing showV showN parse parseN zero rd)
    (seeds : List (Seed V)) :
    ∃ t, saveSpheres showV showN 3 seeds.length (seeds.flatMap fun s => [s.x, s.y, s.z]) (some (seeds.map (·.sizing))) (some (seeds.map (·.region))) = some t ∧
      readSeeds parse parseN t = some (seeds.map (printedSeed rd)) := by
  let toks : Seed V → List Tok := fun s => showV s.x :: [s.y, s.z, s.sizing].map (fun v => ' ' :: showV v) ++ [s.region].map (fun v => ' ' :: showN v)
  have hrow : ∀ i s, seeds[i]? = some s →
      sphereRow showV showN 3 (seeds.flatMap fun s => [s.x, s.y, s.z]) (some (seeds.map (·.sizing))) (some (seeds.map (·.region))) i = some (joinWith ',' (toks s)) := by
    intro i s hi
    obtain ⟨c, cs, e1, e2⟩ := sphereNumbers_row showV (fun s : Seed V => [s.x, s.y, s.z]) 2 seeds (by simp) i s hi
    obtain ⟨rfl, rfl⟩ : s.x = c ∧ [s.y, s.z] = cs := by simpa using e1
    have e2' : sphereNumbers showV (seeds.flatMap fun s => [s.x, s.y, s.z]) (i * 3) (3 - 1) = some (showV s.x ++ sepAll showV [s.y, s.z]) := e2
    simp only [sphereRow, e2', sphereRegion, List.getElem?_map, hi, Option.map_some]
    simp [toks, joinWith, sepAll]
  refine ⟨sphereHeader showN 3 ++ '\n' :: seeds.flatMap fun s => joinWith ',' (toks s) ++ ['\n'], ?_, ?_⟩
  · simp only [saveSpheres]
    rw [rowsFrom_spec _ seeds (fun s => joinWith ',' (toks s)) hrow seeds.length 0 (by omega), List.drop_zero]
  · have hfree : ∀ s : Seed V, ∀ t ∈ toks s, ',' ∉ t ∧ '\n' ∉ t := fun s => comma_line_free P s.x _ _
    have hlines := saved_lines (showN := showN) P.lineN 3 seeds toks fun s _ t ht => (hfree s t ht).2
    have htok : ∀ s : Seed V, getTokens (joinWith ',' (toks s)) ',' = some (toks s) := fun s => getTokens_join ',' _ (fun t ht => (hfree s t ht).1) (by simp [toks])
    obtain ⟨ss, h1, h2⟩ := (C16_seed_file parse parseN (sphereHeader showN 3 ++ '\n' :: seeds.flatMap fun s => joinWith ',' (toks s) ++ ['\n'])).1 (by
      rw [hlines, List.tail_cons]
      intro l hl
      obtain ⟨s, -, rfl⟩ := List.mem_map.1 hl
      have := count_joinWith ',' (toks s) (fun t ht => (hfree s t ht).1) (by simp [toks])
      have hlen : (toks s).length = 5 := rfl
      omega)
    rw [h1]
    congr 1
    rw [hlines, List.tail_cons, List.forall₂_map_left_iff] at h2
    clear h1 hlines hrow
    induction h2 with
    | nil => rfl
    | cons h _ ih =>
      obtain ⟨a, b, c, d, e, g1, g2, g3, g4, g5, rfl⟩ := h
      rw [ih, List.map_cons]
      congr 1
      rw [field, htok, Option.bind_some] at g1 g2 g3 g4 g5
      simp only [toks, List.map_cons, List.map_nil, List.cons_append, List.nil_append, List.getElem?_cons_zero, List.getElem?_cons_succ, Option.some.injEq] at g1 g2 g3 g4 g5
      subst g1 g2 g3 g4 g5
      simp only [printedSeed, P.first, P.later, P.count]

/-- **C116, monitoring points.** Points with radius written without sizes and regions, as the files of monitoring points are, and read again by `load_spheres_csv` are the same points in the same order,
in any dimension. -/
theorem C116_points_read_back {showV : V → List Char} {showN : Nat → List Char} {parse : Tok → V} {parseN : Tok → Nat} {zero : V} {rd : V → V} (P : Printing showV showN parse parseN zero rd)
    (dim : Nat) (pts : List (List V)) (hp : ∀ p ∈ pts, p.length = dim + 1) :
    ∃ t, saveSpheres showV showN dim pts.length pts.flatten none none = some t ∧ loadSpheres parse dim t = some (pts.map (List.map rd)) := by
  let toks : List V → List Tok := fun p => match p with
    | [] => []
    | c :: cs => showV c :: cs.map (fun v => ' ' :: showV v) ++ ([] : List Nat).map (fun v => ' ' :: showN v)
  have hfl : pts.flatten = pts.flatMap fun p => p := by simp
  have hrow : ∀ i p, pts[i]? = some p → sphereRow showV showN dim pts.flatten none none i = some (joinWith ',' (toks p)) := by
    intro i p hi
    obtain ⟨c, cs, e1, e2⟩ := sphereNumbers_row showV (fun p : List V => p) dim pts hp i p hi
    rw [← hfl] at e2
    have e1' : p = c :: cs := e1
    simp only [sphereRow, e2, sphereRegion, List.append_nil, e1', toks, List.map_nil]
    congr 1
    exact join_sepAll showV cs [showV c] (by simp)
  refine ⟨sphereHeader showN dim ++ '\n' :: pts.flatMap fun s => joinWith ',' (toks s) ++ ['\n'], ?_, ?_⟩
  · simp only [saveSpheres]
    rw [rowsFrom_spec _ pts (fun s => joinWith ',' (toks s)) hrow pts.length 0 (by omega), List.drop_zero]
  · have hfree : ∀ p : List V, ∀ t ∈ toks p, ',' ∉ t ∧ '\n' ∉ t := by
      intro p
      cases p with
      | nil => intro t ht; simp [toks] at ht
      | cons c cs => exact comma_line_free P c cs []
    have hlines := saved_lines (showN := showN) P.lineN dim pts toks fun s _ t ht => (hfree s t ht).2
    rw [C16_sphere_file, hlines, List.tail_cons]
    congr 1
    have key : ∀ p ∈ pts, dim ≤ (joinWith ',' (toks p)).count ',' ∧ sphereOnLine parse dim (joinWith ',' (toks p)) = p.map rd := by
      intro p hpm
      have hl := hp p hpm
      obtain ⟨c, cs, rfl⟩ : ∃ c cs, p = c :: cs := by
        cases p with
        | nil => simp at hl
        | cons c cs => exact ⟨c, cs, rfl⟩
      have hlen : (toks (c :: cs)).length = dim + 1 := by
        simp [toks] at hl ⊢
        exact hl
      have hne : toks (c :: cs) ≠ [] := by simp [toks]
      have h1 := count_joinWith ',' (toks (c :: cs)) (fun t ht => (hfree (c :: cs) t ht).1) hne
      refine ⟨by omega, ?_⟩
      rw [sphereOnLine, getTokens_join ',' (toks (c :: cs)) (fun t ht => (hfree (c :: cs) t ht).1) hne, Option.getD_some, List.take_of_length_le (by omega)]
      simp [toks, P.first, P.later]
    rw [List.filter_eq_self.2 (by
      intro l hl
      obtain ⟨p, hpm, rfl⟩ := List.mem_map.1 hl
      exact decide_eq_true (key p hpm).1), List.map_map]
    exact List.map_congr_left fun p hpm => (key p hpm).2

/-- **C116, finding.** A file of monitoring points has no column of regions: given as a file of seeds it is undefined behaviour, unless it is empty. -/
theorem C116_points_as_seeds_undefined {showV : V → List Char} {showN : Nat → List Char} {parse : Tok → V} {parseN : Tok → Nat} {zero : V} {rd : V → V} (P : Printing showV showN parse parseN zero rd)
    (p : V × V × V × V) (pts : List (V × V × V × V)) :
    ∃ t, saveSpheres showV showN 3 (p :: pts).length ((p :: pts).flatMap fun p => [p.1, p.2.1, p.2.2.1, p.2.2.2]) none none = some t ∧ readSeeds parse parseN t = none := by
  let toks : V × V × V × V → List Tok := fun p => showV p.1 :: [p.2.1, p.2.2.1, p.2.2.2].map (fun v => ' ' :: showV v) ++ ([] : List Nat).map (fun v => ' ' :: showN v)
  have hrow : ∀ i q, (p :: pts)[i]? = some q →
      sphereRow showV showN 3 ((p :: pts).flatMap fun p => [p.1, p.2.1, p.2.2.1, p.2.2.2]) none none i = some (joinWith ',' (toks q)) := by
    intro i q hi
    obtain ⟨c, cs, e1, e2⟩ := sphereNumbers_row showV (fun p : V × V × V × V => [p.1, p.2.1, p.2.2.1, p.2.2.2]) 3 (p :: pts) (by simp) i q hi
    obtain ⟨rfl, rfl⟩ : q.1 = c ∧ [q.2.1, q.2.2.1, q.2.2.2] = cs := by simpa using e1
    have e2' : sphereNumbers showV ((p :: pts).flatMap fun p => [p.1, p.2.1, p.2.2.1, p.2.2.2]) (i * (3 + 1)) 3 = some (showV q.1 ++ sepAll showV [q.2.1, q.2.2.1, q.2.2.2]) := e2
    simp only [sphereRow, e2', sphereRegion]
    simp [toks, joinWith, sepAll]
  refine ⟨_, by simp only [saveSpheres]; rw [rowsFrom_spec _ (p :: pts) (fun s => joinWith ',' (toks s)) hrow (p :: pts).length 0 (by omega), List.drop_zero], ?_⟩
  have hfree : ∀ q : V × V × V × V, ∀ t ∈ toks q, ',' ∉ t ∧ '\n' ∉ t := fun q => comma_line_free P q.1 _ _
  refine (C16_seed_file parse parseN _).2 ?_
  rw [saved_lines (showN := showN) P.lineN 3 (p :: pts) toks fun s _ t ht => (hfree s t ht).2, List.tail_cons]
  refine ⟨joinWith ',' (toks p), by simp, ?_⟩
  have := count_joinWith ',' (toks p) (fun t ht => (hfree p t ht).1) (by simp [toks])
  have hlen : (toks p).length = 4 := rfl
  omega

end

/-- **C116, restart.** A run on the file `seeds.csv` is the run on the seeds that were written there, the numbers as printed. -/
theorem C116_restart {showV : ℝ → List Char} {showN : Nat → List Char} {parse : Tok → ℝ} {parseN : Tok → Nat} {zero : ℝ} {rd : ℝ → ℝ} (P : Printing showV showN parse parseN zero rd)
    (flt : ℝ → ℝ) (v e : Bool) (seeds : List (Seed ℝ)) :
    ∃ t, saveSpheres showV showN 3 seeds.length (seeds.flatMap fun s => [s.x, s.y, s.z]) (some (seeds.map (·.sizing))) (some (seeds.map (·.region))) = some t ∧
      ∀ fuel' fuel, meshFromSeedsFile parse parseN flt v e t fuel' fuel = explicitMesh flt v e seeds.length (seeds.map fun s => recOfSeed (printedSeed rd s)) fuel' fuel := by
  obtain ⟨t, h1, h2⟩ := C116_seeds_read_back P seeds
  refine ⟨t, h1, fun fuel' fuel => ?_⟩
  simp only [meshFromSeedsFile, h2, List.length_map, List.map_map]
  rfl

/-- A printing of reals to fifteen decimals, as rows of ones. -/
theorem real_printing : Printing (V := ℝ) (fun x => List.replicate (Equiv.intEquivNat (round (x * 10 ^ 15))) '1') (fun n => List.replicate n '1')
    (fun t => ((Equiv.intEquivNat.symm (t.count '1') : ℤ) : ℝ) / 10 ^ 15) (fun t => t.count '1') (((Equiv.intEquivNat.symm 0 : ℤ) : ℝ) / 10 ^ 15) (fun x => (round (x * 10 ^ 15) : ℝ) / 10 ^ 15) := by
  constructor
  all_goals intros
  all_goals first
    | (intro h; have := List.eq_of_mem_replicate h; revert this; decide)
    | simp

/-- Two seeds, numbers written in unary. -/
example : ∃ t, saveSpheres (fun n => List.replicate n '1') (fun n => List.replicate n '1') 3 2 [1, 2, 3, 4, 5, 6] (some [7, 8]) (some [1, 2]) = some t ∧
    readSeeds (fun t => t.count '1') (fun t => t.count '1') t = some [⟨1, 2, 3, 7, 1⟩, ⟨4, 5, 6, 8, 2⟩] :=
  C116_seeds_read_back unary_printing [⟨1, 2, 3, 7, 1⟩, ⟨4, 5, 6, 8, 2⟩]

end VoroCrust
