import Verif.Props.Text
import Verif.Props.Weld
import Verif.Lemmas.Euclid
import Verif.Model.ObjFile
import Mathlib.Algebra.Order.Round

/-! # Property C100: the surface files that are written -/

set_option linter.unusedSimpArgs false

namespace VoroCrust

/-- What is used of printing and parsing: a printed coordinate is one word, it is read back as `rd v` (the number cut to 16
digits), and a corner number of at most 53 bits is read back as it was printed. -/
structure ObjPrinting {V : Type} (showV : V → List Char) (parse : Tok → V) (index : Tok → Option Nat) (rd : V → V) : Prop where
  solid : ∀ v, ∀ c ∈ showV v, isWs c = false
  nonempty : ∀ v, showV v ≠ []
  coord : ∀ v, parse (showV v) = rd v
  corner : ∀ n, n < 2 ^ 53 → index (Nat.toDigits 10 (n + 1)) = some n

theorem digits_solid (n : Nat) : ∀ c ∈ Nat.toDigits 10 n, isWs c = false ∧ c ≠ '/' := by
  intro c hc
  have h := Nat.isDigit_of_mem_toDigits (by norm_num) (by norm_num) hc
  have h2 : 48 ≤ c.toNat ∧ c.toNat ≤ 57 := by
    simp only [Char.isDigit, Bool.and_eq_true, decide_eq_true_eq, ge_iff_le] at h
    exact ⟨h.1, h.2⟩
  constructor
  · by_contra hw
    rw [Bool.not_eq_false, C13_white_space] at hw
    omega
  · rintro rfl
    exact absurd h2.1 (by decide)

theorem digits_cut (n : Nat) : cutSlash (Nat.toDigits 10 n) = Nat.toDigits 10 n :=
  (C65_corner_reference _ [] (fun h => (digits_solid n _ h).2 rfl)).1

theorem solid_noline {l : List Char} (h : ∀ c ∈ l, isWs c = false) : '\n' ∉ l := by
  intro hc
  have := h _ hc
  exact absurd this (by decide)

/-- The words of `v x y z`. -/
theorem vertex_words {V : Type} {showV : V → List Char} {parse : Tok → V} {index : Tok → Option Nat} {rd : V → V} (hP : ObjPrinting showV parse index rd) (p : Nat → V) :
    ∃ l, vertexText showV p = l ++ ['\n'] ∧ '\n' ∉ l ∧ words l = [['v'], showV (p 0), showV (p 1), showV (p 2)] := by
  refine ⟨"v ".toList ++ showV (p 0) ++ " ".toList ++ showV (p 1) ++ " ".toList ++ showV (p 2), by simp [vertexText], ?_, ?_⟩
  · have h0 := solid_noline (hP.solid (p 0)); have h1 := solid_noline (hP.solid (p 1)); have h2 := solid_noline (hP.solid (p 2))
    simp [h0, h1, h2]
  · have h := C13_words [] [(['v'], [' ']), (showV (p 0), [' ']), (showV (p 1), [' '])] (showV (p 2)) (by simp)
      (by
        intro q hq
        simp only [List.mem_cons, List.not_mem_nil, or_false] at hq
        have hsp : ∀ c ∈ [' '], isWs c = true := by decide
        rcases hq with rfl | rfl | rfl
        · exact ⟨by simp, by simp, by decide, hsp⟩
        · exact ⟨hP.nonempty _, by simp, hP.solid _, hsp⟩
        · exact ⟨hP.nonempty _, by simp, hP.solid _, hsp⟩)
      (hP.solid _)
    rw [if_neg (hP.nonempty _)] at h
    simpa using h

/-- The words of `f  a b c`. -/
theorem face_words (a b c : Nat) (rest : List Nat) :
    ∃ l, faceText (a :: b :: c :: rest) = some (l ++ ['\n']) ∧ '\n' ∉ l ∧ words l = [['f'], Nat.toDigits 10 (a + 1), Nat.toDigits 10 (b + 1), Nat.toDigits 10 (c + 1)] := by
  have hs : ∀ n, ∀ x ∈ Nat.toDigits 10 n, isWs x = false := fun n x hx => (digits_solid n x hx).1
  refine ⟨"f ".toList ++ " ".toList ++ Nat.toDigits 10 (a + 1) ++ " ".toList ++ Nat.toDigits 10 (b + 1) ++ " ".toList ++ Nat.toDigits 10 (c + 1), by simp [faceText], ?_, ?_⟩
  · have h0 := solid_noline (hs (a + 1)); have h1 := solid_noline (hs (b + 1)); have h2 := solid_noline (hs (c + 1))
    simp [h0, h1, h2]
  · have h := C13_words [] [(['f'], [' ', ' ']), (Nat.toDigits 10 (a + 1), [' ']), (Nat.toDigits 10 (b + 1), [' '])] (Nat.toDigits 10 (c + 1)) (by simp)
      (by
        intro q hq
        simp only [List.mem_cons, List.not_mem_nil, or_false] at hq
        have hsp : ∀ c ∈ [' '], isWs c = true := by decide
        rcases hq with rfl | rfl | rfl
        · exact ⟨by simp, by simp, by decide, by decide⟩
        · exact ⟨Nat.toDigits_ne_nil, by simp, hs _, hsp⟩
        · exact ⟨Nat.toDigits_ne_nil, by simp, hs _, hsp⟩)
      (hs _)
    rw [if_neg Nat.toDigits_ne_nil] at h
    simpa using h

theorem fileLines_cons (l rest : List Char) (h : '\n' ∉ l) : fileLines (l ++ ['\n'] ++ rest) = l :: fileLines rest := by
  have := linesGo_append l rest [] h
  simpa [fileLines] using this

/-- The first three corners of a face. -/
def firstThree : List Nat → Nat × Nat × Nat
  | a :: b :: c :: _ => (a, b, c)
  | _ => (0, 0, 0)

theorem obj_face_lines {V : Type} (parse : Tok → V) {index : Tok → Option Nat} (hi : ∀ n, n < 2 ^ 53 → index (Nat.toDigits 10 (n + 1)) = some n) (faces : List (List Nat))
    (hf : ∀ f ∈ faces, 3 ≤ f.length ∧ ∀ c ∈ f, c < 2 ^ 53) :
    ∃ t, facesText faces = some t ∧ (∀ l ∈ (fileLines t).map words, ObjLineOk index l) ∧ objPoints parse ((fileLines t).map words) = [] ∧
      objFaces index ((fileLines t).map words) = faces.map firstThree := by
  induction faces with
  | nil => exact ⟨[], rfl, by simp [fileLines, linesGo], by simp [fileLines, linesGo, objPoints], by simp [fileLines, linesGo, objFaces]⟩
  | cons f fs ih =>
    obtain ⟨t, et, h1, h2, h3⟩ := ih (fun g hg => hf g (by simp [hg]))
    obtain ⟨hl, hc⟩ := hf f (by simp)
    match f, hl, hc with
    | a :: b :: c :: rest, _, hc =>
      obtain ⟨l, el, hn, hw⟩ := face_words a b c rest
      have ha := hi a (hc a (by simp)); have hb := hi b (hc b (by simp)); have hcc := hi c (hc c (by simp))
      refine ⟨l ++ ['\n'] ++ t, by simp [facesText, el, et], ?_, ?_, ?_⟩ <;> rw [fileLines_cons _ _ hn, List.map_cons, hw]
      · intro x hx
        rcases List.mem_cons.1 hx with rfl | hx
        · exact ⟨by simp, fun _ => ⟨_, _, _, [], rfl, by rw [digits_cut, ha]; rfl, by rw [digits_cut, hb]; rfl, by rw [digits_cut, hcc]; rfl⟩⟩
        · exact h1 x hx
      · simpa [objPoints] using h2
      · have : objFaces index ([['f'], Nat.toDigits 10 (a + 1), Nat.toDigits 10 (b + 1), Nat.toDigits 10 (c + 1)] :: (fileLines t).map words) =
            (a, b, c) :: objFaces index ((fileLines t).map words) := by
          simp [objFaces, digits_cut, ha, hb, hcc]
        rw [this, h3]; rfl

/-- **C100, a written file reads back.** Whatever surface is saved, if its faces have three corners with numbers of at most 53 bits, the
file is written, and reading it gives the same points in the same order with every coordinate as it was printed, and the same faces in the same order. -/
theorem C100_round_trip {V : Type} {showV : V → List Char} {parse : Tok → V} {index : Tok → Option Nat} {rd : V → V} (hP : ObjPrinting showV parse index rd)
    (points : List (Nat → V)) (faces : List (List Nat)) (hf : ∀ f ∈ faces, 3 ≤ f.length ∧ ∀ c ∈ f, c < 2 ^ 53) :
    ∃ t, saveObj showV points faces = some t ∧
      readObj parse index t = some { points := points.map (fun p => (rd (p 0), rd (p 1), rd (p 2))), faces := faces.map firstThree } := by
  obtain ⟨t, et, h1, h2, h3⟩ := obj_face_lines parse hP.corner faces hf
  refine ⟨(points.map (vertexText showV)).flatten ++ t, by simp [saveObj, et], ?_⟩
  have key : (∀ l ∈ (fileLines ((points.map (vertexText showV)).flatten ++ t)).map words, ObjLineOk index l) ∧
      objPoints parse ((fileLines ((points.map (vertexText showV)).flatten ++ t)).map words) = points.map (fun p => (rd (p 0), rd (p 1), rd (p 2))) ∧
      objFaces index ((fileLines ((points.map (vertexText showV)).flatten ++ t)).map words) = faces.map firstThree := by
    induction points with
    | nil => exact ⟨by simpa using h1, by simpa using h2, by simpa using h3⟩
    | cons p ps ih =>
      obtain ⟨l, el, hn, hw⟩ := vertex_words hP p
      obtain ⟨i1, i2, i3⟩ := ih
      have e : ((p :: ps).map (vertexText showV)).flatten ++ t = l ++ ['\n'] ++ ((ps.map (vertexText showV)).flatten ++ t) := by
        simp [el]
      rw [e, fileLines_cons _ _ hn, List.map_cons, hw]
      refine ⟨?_, ?_, ?_⟩
      · intro x hx
        rcases List.mem_cons.1 hx with rfl | hx
        · exact ⟨by simp, by simp⟩
        · exact i1 x hx
      · have : objPoints parse ([['v'], showV (p 0), showV (p 1), showV (p 2)] :: (fileLines ((ps.map (vertexText showV)).flatten ++ t)).map words) =
            (rd (p 0), rd (p 1), rd (p 2)) :: objPoints parse ((fileLines ((ps.map (vertexText showV)).flatten ++ t)).map words) := by
          simp [objPoints, hP.coord]
        rw [this, i2]; rfl
      · have : objFaces index ([['v'], showV (p 0), showV (p 1), showV (p 2)] :: (fileLines ((ps.map (vertexText showV)).flatten ++ t)).map words) =
            objFaces index ((fileLines ((ps.map (vertexText showV)).flatten ++ t)).map words) := by
          simp [objFaces]
        rw [this, i3]
  have := (C65_obj_file parse index ((points.map (vertexText showV)).flatten ++ t)).1 key.1
  rw [this, key.2.1, key.2.2]

/-! ## Reading what was written -/

/-- Welding leaves points that are apart alone. -/
theorem weld_apart (rb : Nat → Nat → Bool) {h : ℝ} (h0 : 0 < h) (points : List (Nat → ℝ)) (faces : List (List Nat)) (ha : PairwiseApart h points) :
    weld rb h points faces = some (points, faces) := by
  obtain ⟨reps, st, map, e1, e2, ap, rep, sub⟩ := weldPoints_spec (rb := rb) (hmin := h) points [] [] (SmartTree.empty (fun _ _ => 0) id id) []
    rfl List.Pairwise.nil List.Forall₂.nil (by simp) (List.Sublist.refl _)
  simp only [List.nil_append] at rep sub
  have hi := addTreePoints_num e2
  have nd : points.Nodup := by
    refine List.Pairwise.imp ?_ ha
    rintro a b hab rfl
    rw [euclid_self] at hab
    linarith
  have far : ∀ x ∈ points, ∀ y ∈ points, x ≠ y → h ≤ euclid 3 x y := by
    have hs : Std.Symm (fun p q : Nat → ℝ => h ≤ euclid 3 q p) := ⟨fun a b hab => by rw [euclid_comm]; exact hab⟩
    intro x hx y hy hne
    have := List.Pairwise.forall ha hx hy hne
    rw [euclid_comm]; exact this
  have hsub : points ⊆ reps := by
    intro x hx
    obtain ⟨k, hk, rfl⟩ := List.getElem_of_mem hx
    obtain ⟨m, _, r, hr, hh⟩ := forall₂_get rep hk
    have hr' := List.mem_of_getElem? hr
    rcases hh with rfl | hh
    · exact hr'
    · by_cases e : points[k] = r
      · rw [e]; exact hr'
      · have := far _ (List.getElem_mem hk) r (sub.subset hr') e
        linarith
  have hlen : reps.length = points.length := le_antisymm sub.length_le (List.Subperm.length_le (nd.subperm hsub))
  have hn : st.num = points.length := by rw [hi.num, hlen]
  simp only [weld, e1, hn, if_true]

/-- The faces `g` of the surface `S` and `f` of the surface with points `P` have corners that are pairwise nearer than `d`. -/
def NearFace (d : ℝ) (P S : List (Nat → ℝ)) (f g : List Nat) : Prop :=
  List.Forall₂ (fun c m => ∃ x r, P[c]? = some x ∧ S[m]? = some r ∧ euclid 3 x r < d) f g

/-- Two corners of the face are nearer than `d` to each other. -/
def Collapsed (d : ℝ) (P : List (Nat → ℝ)) (f : List Nat) : Prop :=
  ∃ (i j a b : Nat) (x y : Nat → ℝ), i < j ∧ f[i]? = some a ∧ f[j]? = some b ∧ P[a]? = some x ∧ P[b]? = some y ∧ euclid 3 x y < d

/-- Triangles with corners in range. -/
def Triangles (P : List (Nat → ℝ)) (F : List (List Nat)) : Prop := ∀ f ∈ F, f.length = 3 ∧ ∀ c ∈ f, c < P.length

/-- The points and faces of `P`, `F` are in `S` within `d`. -/
def Contains (d : ℝ) (P : List (Nat → ℝ)) (F : List (List Nat)) (S : SavedSurface) : Prop :=
  (∀ p ∈ P, ∃ r ∈ S.points, euclid 3 p r < d) ∧ ∀ f ∈ F, (∃ g ∈ S.faces, NearFace d P S.points f g) ∨ Collapsed (2 * d) P f

/-- A surface fit for sampling: points at least `1e-8` apart, triangles with corners in range. -/
def GoodSurface (S : SavedSurface) : Prop := PairwiseApart (1 / 10 ^ 8) S.points ∧ Triangles S.points S.faces

theorem facesText_some (faces : List (List Nat)) (h : ∀ f ∈ faces, f.length = 3) : ∃ t, facesText faces = some t := by
  induction faces with
  | nil => exact ⟨[], rfl⟩
  | cons f fs ih =>
    obtain ⟨t, et⟩ := ih (fun g hg => h g (by simp [hg]))
    match f, h f (by simp) with
    | [a, b, c], _ =>
      obtain ⟨l, el, _, _⟩ := face_words a b c []
      exact ⟨l ++ ['\n'] ++ t, by simp [facesText, el, et]⟩

theorem near_of_represents {h : ℝ} (h0 : 0 < h) {x r : Nat → ℝ} (hh : r = x ∨ euclid 3 x r < h) : euclid 3 x r < h := by
  rcases hh with rfl | hh
  · rw [euclid_self]; exact h0
  · exact hh

theorem forall₂_length3 {R : Nat → Nat → Prop} {f g : List Nat} (h : List.Forall₂ R f g) (hl : f.length = 3) :
    ∃ a b c a' b' c', f = [a, b, c] ∧ g = [a', b', c'] ∧ R a a' ∧ R b b' ∧ R c c' := by
  match f, hl with
  | [a, b, c], _ =>
    cases h with
    | cons h1 h => cases h with
      | cons h2 h => cases h with
        | cons h3 h => cases h; exact ⟨a, b, c, _, _, _, rfl, rfl, h1, h2, h3⟩

/-- Welding and saving a surface of triangles. -/
theorem weldAndSave_spec (showV : ℝ → List Char) (rb : Nat → Nat → Bool) (P : List (Nat → ℝ)) (F : List (List Nat)) (hT : Triangles P F) :
    ∃ S, weldAndSave showV rb P F = some S ∧ GoodSurface S ∧ S.points.Sublist P ∧ saveObj showV S.points S.faces = some S.text ∧
      Contains (1 / 10 ^ 8) P F S ∧ ∀ g ∈ S.faces, ∃ f ∈ F, NearFace (1 / 10 ^ 8) P S.points f g := by
  obtain ⟨ps, fs, e, hsub, hap, hrep, heq, hne⟩ := C17_weld_partial rb (1 / 10 ^ 8) P F (fun f hf => (hT f hf).2)
  have d0 : (0 : ℝ) < 1 / 10 ^ 8 := by norm_num
  have hbox : Triangles ps fs ∧ (∀ f ∈ F, (∃ g ∈ fs, NearFace (1 / 10 ^ 8) P ps f g) ∨ Collapsed (2 * (1 / 10 ^ 8)) P f) ∧ ∀ g ∈ fs, ∃ f ∈ F, NearFace (1 / 10 ^ 8) P ps f g := by
    by_cases hl : ps.length = P.length
    · obtain ⟨rfl, rfl⟩ := heq hl
      have self : ∀ f ∈ fs, NearFace (1 / 10 ^ 8) ps ps f f := by
        intro f hf
        have hc := (hT f hf).2
        clear hf
        induction f with
        | nil => exact List.Forall₂.nil
        | cons c f ih =>
          exact List.Forall₂.cons ⟨ps[c]'(hc c (by simp)), _, List.getElem?_eq_getElem _, List.getElem?_eq_getElem _, by rw [euclid_self]; exact d0⟩ (ih (fun x hx => hc x (by simp [hx])))
      exact ⟨hT, fun f hf => Or.inl ⟨f, hf, self f hf⟩, fun g hg => ⟨g, hg, self g hg⟩⟩
    · obtain ⟨rm, h2, hp⟩ := hne hl
      have toNear : ∀ f g, FaceRepresents (1 / 10 ^ 8) P ps f g → NearFace (1 / 10 ^ 8) P ps f g := fun f g h =>
        List.Forall₂.imp (fun c m ⟨x, r, hx, hr, hh⟩ => ⟨x, r, hx, hr, near_of_represents d0 hh⟩) h
      have back : ∀ g ∈ rm, ∃ f ∈ F, FaceRepresents (1 / 10 ^ 8) P ps f g := by
        intro g hg
        obtain ⟨k, hk, rfl⟩ := List.getElem_of_mem hg
        have hkF : k < F.length := by rw [h2.length_eq]; exact hk
        exact ⟨F[k], List.getElem_mem _, h2.get hkF hk⟩
      have backF : ∀ g ∈ fs, ∃ f ∈ F, FaceRepresents (1 / 10 ^ 8) P ps f g := fun g hg => back g (List.mem_filter.1 (hp.mem_iff.1 hg)).1
      refine ⟨?_, ?_, fun g hg => ?_⟩
      · intro g hg
        obtain ⟨f, hf, hr⟩ := backF g hg
        refine ⟨by rw [← hr.length_eq]; exact (hT f hf).1, ?_⟩
        intro m hm
        obtain ⟨k, hk, rfl⟩ := List.getElem_of_mem hm
        obtain ⟨x, r, _, hr', _⟩ := hr.get (by rw [hr.length_eq]; exact hk) hk
        exact (List.getElem?_eq_some_iff.1 hr').1
      · intro f hf
        obtain ⟨k, hk, rfl⟩ := List.getElem_of_mem hf
        obtain ⟨g, hg, hr⟩ := forall₂_get h2 hk
        have hgm := List.mem_of_getElem? hg
        by_cases hd : degenerateFace g = true
        · right
          obtain ⟨a, b, c, a', b', c', ef, eg, ra, rb', rc⟩ := forall₂_length3 hr (hT _ hf).1
          have hdd : a' = b' ∨ b' = c' ∨ c' = a' := by
            by_contra hcon
            push Not at hcon
            have := (degenerate_triangle a' b' c').2 ⟨hcon.1, hcon.2.1, hcon.2.2⟩
            rw [eg] at hd; rw [this] at hd; exact absurd hd (by simp)
          have two : ∀ u v m i j : Nat, i < j → (F[k])[i]? = some u → (F[k])[j]? = some v →
              (∃ x r, P[u]? = some x ∧ ps[m]? = some r ∧ (r = x ∨ euclid 3 x r < 1 / 10 ^ 8)) → (∃ x r, P[v]? = some x ∧ ps[m]? = some r ∧ (r = x ∨ euclid 3 x r < 1 / 10 ^ 8)) →
              Collapsed (2 * (1 / 10 ^ 8)) P F[k] := by
            rintro u v m i j hij hu hv ⟨x, r, hx, hr1, hh⟩ ⟨y, r', hy, hr2, hh'⟩
            rw [hr1] at hr2; cases hr2
            refine ⟨i, j, u, v, x, y, hij, hu, hv, hx, hy, ?_⟩
            have t := euclid_triangle 3 x r y
            have n1 := near_of_represents d0 hh
            have n2 := near_of_represents d0 hh'
            rw [euclid_comm] at n2
            linarith
          rcases hdd with e1 | e1 | e1
          · exact two a b b' 0 1 (by norm_num) (by rw [ef]; rfl) (by rw [ef]; rfl) (e1 ▸ ra) rb'
          · exact two b c c' 1 2 (by norm_num) (by rw [ef]; rfl) (by rw [ef]; rfl) (e1 ▸ rb') rc
          · exact two a c c' 0 2 (by norm_num) (by rw [ef]; rfl) (by rw [ef]; rfl) (e1.symm ▸ ra) rc
        · left
          exact ⟨g, hp.mem_iff.2 (List.mem_filter.2 ⟨hgm, by simpa using hd⟩), toNear _ _ hr⟩
      · obtain ⟨f, hf, hr⟩ := backF g hg
        exact ⟨f, hf, toNear _ _ hr⟩
  obtain ⟨t, et⟩ := facesText_some fs (fun f hf => (hbox.1 f hf).1)
  have hs : saveObj showV ps fs = some ((ps.map (vertexText showV)).flatten ++ t) := by simp [saveObj, et]
  refine ⟨⟨ps, fs, _⟩, by simp only [weldAndSave, e, hs, Option.map_some], ⟨hap, hbox.1⟩, hsub, hs, ⟨?_, hbox.2.1⟩, hbox.2.2⟩
  intro p hp
  obtain ⟨r, hr, hh⟩ := hrep p hp
  exact ⟨r, hr, near_of_represents d0 hh⟩

/-- The points of a file. -/
noncomputable def filePoints (parse : Tok → ℝ) (file : List Char) : List (Nat → ℝ) := (objPoints parse ((fileLines file).map words)).map arrayPt

/-- The faces of a file. -/
def fileFaces (index : Tok → Option Nat) (file : List Char) : List (List Nat) := (objFaces index ((fileLines file).map words)).map arrayFace

/-- The vertex and face lines of the file are well formed, and the faces refer to vertices of the file. -/
def FileOk (parse : Tok → ℝ) (index : Tok → Option Nat) (file : List Char) : Prop :=
  (∀ t ∈ (fileLines file).map words, ObjLineOk index t) ∧ ∀ f ∈ fileFaces index file, ∀ c ∈ f, c < (filePoints parse file).length

theorem fileFaces_triangles {parse : Tok → ℝ} {index : Tok → Option Nat} {file : List Char} (h : FileOk parse index file) : Triangles (filePoints parse file) (fileFaces index file) := by
  intro f hf
  refine ⟨?_, h.2 f hf⟩
  simp only [fileFaces, List.mem_map] at hf
  obtain ⟨t, _, rfl⟩ := hf
  rfl

theorem readInput_spec {parse : Tok → ℝ} {index : Tok → Option Nat} (showV : ℝ → List Char) (rb : Nat → Nat → Bool) {file : List Char} (h : FileOk parse index file) :
    ∃ S, readInput parse index showV rb file = some S ∧ GoodSurface S ∧ S.points.Sublist (filePoints parse file) ∧ saveObj showV S.points S.faces = some S.text ∧
      Contains (1 / 10 ^ 8) (filePoints parse file) (fileFaces index file) S ∧ ∀ g ∈ S.faces, ∃ f ∈ fileFaces index file, NearFace (1 / 10 ^ 8) (filePoints parse file) S.points f g := by
  have e := (C65_obj_file parse index file).1 h.1
  obtain ⟨S, eS, hS⟩ := weldAndSave_spec showV rb _ _ (fileFaces_triangles h)
  exact ⟨S, by simp only [readInput, e]; exact eS, hS⟩

/-! ## Several files -/

/-- The points `A` are found in `B` from position `k` on. -/
def ShiftedIn (k : Nat) (A B : List (Nat → ℝ)) : Prop := ∀ (c : Nat) (x : Nat → ℝ), A[c]? = some x → B[c + k]? = some x

theorem merge_spec (ss : List SavedSurface) (hs : ∀ s ∈ ss, Triangles s.points s.faces) (acc : List (Nat → ℝ) × List (List Nat)) (hT : Triangles acc.1 acc.2) :
    Triangles (ss.foldl appendSurface acc).1 (ss.foldl appendSurface acc).2 ∧ ShiftedIn 0 acc.1 (ss.foldl appendSurface acc).1 ∧ acc.2 ⊆ (ss.foldl appendSurface acc).2 ∧
      (∀ s ∈ ss, ∃ k, ShiftedIn k s.points (ss.foldl appendSurface acc).1 ∧ ∀ f ∈ s.faces, f.map (· + k) ∈ (ss.foldl appendSurface acc).2) ∧
      (∀ g ∈ (ss.foldl appendSurface acc).2, g ∈ acc.2 ∨ ∃ s ∈ ss, ∃ k, ShiftedIn k s.points (ss.foldl appendSurface acc).1 ∧ ∃ f ∈ s.faces, g = f.map (· + k)) ∧
      ∀ p ∈ (ss.foldl appendSurface acc).1, p ∈ acc.1 ∨ ∃ s ∈ ss, p ∈ s.points := by
  induction ss generalizing acc with
  | nil => exact ⟨hT, fun c x h => h, fun _ h => h, by simp, fun g hg => Or.inl hg, fun p hp => Or.inl hp⟩
  | cons s ss ih =>
    have hT' : Triangles (appendSurface acc s).1 (appendSurface acc s).2 := by
      intro f hf
      simp only [appendSurface, List.mem_append, List.mem_map] at hf
      rcases hf with hf | ⟨g, hg, rfl⟩
      · exact ⟨(hT f hf).1, fun c hc => by have := (hT f hf).2 c hc; simp only [appendSurface, List.length_append]; omega⟩
      · refine ⟨by rw [List.length_map]; exact (hs s (by simp) g hg).1, fun c hc => ?_⟩
        obtain ⟨b, hb, rfl⟩ := List.mem_map.1 hc
        have := (hs s (by simp) g hg).2 b hb
        simp only [appendSurface, List.length_append]; omega
    obtain ⟨i1, i2, i3, i4, i5, i6⟩ := ih (fun t ht => hs t (by simp [ht])) (appendSurface acc s) hT'
    have hacc : ShiftedIn 0 acc.1 (appendSurface acc s).1 := by
      intro c x hx
      simp only [appendSurface, Nat.add_zero]
      rw [List.getElem?_append_left (List.getElem?_eq_some_iff.1 hx).1]; exact hx
    have hshift : ShiftedIn acc.1.length s.points (appendSurface acc s).1 := by
      intro c x hx
      simp only [appendSurface]
      rw [List.getElem?_append_right (by omega), Nat.add_sub_cancel]; exact hx
    have hthere : ShiftedIn acc.1.length s.points (ss.foldl appendSurface (appendSurface acc s)).1 := fun c x hx => i2 _ x (hshift c x hx)
    simp only [List.foldl_cons]
    refine ⟨i1, fun c x hx => i2 _ x (hacc c x hx), fun f hf => i3 (by simp [appendSurface, hf]), ?_, ?_, ?_⟩
    · intro t ht
      rcases List.mem_cons.1 ht with rfl | ht
      · exact ⟨_, hthere, fun f hf => i3 (by simp only [appendSurface, List.mem_append, List.mem_map]; exact Or.inr ⟨f, hf, rfl⟩)⟩
      · exact i4 t ht
    · intro g hg
      rcases i5 g hg with h | ⟨t, ht, h⟩
      · simp only [appendSurface, List.mem_append, List.mem_map] at h
        rcases h with h | ⟨f, hf, rfl⟩
        · exact Or.inl h
        · exact Or.inr ⟨s, by simp, _, hthere, f, hf, rfl⟩
      · exact Or.inr ⟨t, by simp [ht], h⟩
    · intro p hp
      rcases i6 p hp with h | ⟨t, ht, h⟩
      · simp only [appendSurface, List.mem_append] at h
        rcases h with h | h
        · exact Or.inl h
        · exact Or.inr ⟨s, by simp, h⟩
      · exact Or.inr ⟨t, by simp [ht], h⟩

theorem NearFace.shift {d : ℝ} {P A B : List (Nat → ℝ)} {f g : List Nat} {k : Nat} (h : NearFace d P A f g) (hk : ShiftedIn k A B) : NearFace d P B f (g.map (· + k)) := by
  unfold NearFace at h ⊢
  rw [List.forall₂_map_right_iff]
  exact List.Forall₂.imp (fun c m ⟨x, r, hx, hr, hd⟩ => ⟨x, r, hx, hk m r hr, hd⟩) h

theorem NearFace.trans {d e : ℝ} {P M S : List (Nat → ℝ)} {f g h : List Nat} (h1 : NearFace d P M f g) (h2 : NearFace e M S g h) : NearFace (d + e) P S f h := by
  unfold NearFace at h1 h2 ⊢
  induction h1 generalizing h with
  | nil => cases h2; exact List.Forall₂.nil
  | cons hab _ ih =>
    cases h2 with
    | cons hbc h2 =>
      refine List.Forall₂.cons ?_ (ih h2)
      obtain ⟨x, r, hx, hr, hd⟩ := hab
      obtain ⟨r', q, hr', hq, hd'⟩ := hbc
      rw [hr] at hr'; cases hr'
      exact ⟨x, q, hx, hq, by have := euclid_triangle 3 x r q; linarith⟩

theorem NearFace.mono {d e : ℝ} {P S : List (Nat → ℝ)} {f g : List Nat} (h : NearFace d P S f g) (hd : d ≤ e) : NearFace e P S f g :=
  List.Forall₂.imp (fun _ _ ⟨x, r, hx, hr, hh⟩ => ⟨x, r, hx, hr, by linarith⟩) h

theorem NearFace.collapsed {d e : ℝ} {P M : List (Nat → ℝ)} {f g : List Nat} (h : NearFace d P M f g) (hc : Collapsed e M g) : Collapsed (2 * d + e) P f := by
  obtain ⟨i, j, a, b, x, y, hij, ha, hb, hx, hy, hd⟩ := hc
  have hl : f.length = g.length := h.length_eq
  obtain ⟨hi1, hi2⟩ := List.getElem?_eq_some_iff.1 ha
  obtain ⟨hj1, hj2⟩ := List.getElem?_eq_some_iff.1 hb
  obtain ⟨x', r, hx', hr, hd1⟩ := h.get (i := i) (by omega) hi1
  obtain ⟨y', q, hy', hq, hd2⟩ := h.get (i := j) (by omega) hj1
  simp only [List.get_eq_getElem] at hx' hr hy' hq
  rw [hi2, hx] at hr; cases hr
  rw [hj2, hy] at hq; cases hq
  refine ⟨i, j, _, _, x', y', hij, List.getElem?_eq_getElem _, List.getElem?_eq_getElem _, hx', hy', ?_⟩
  have t1 := euclid_triangle 3 x' x y'
  have t2 := euclid_triangle 3 x y y'
  rw [euclid_comm 3 y y'] at t2
  linarith

theorem readInputs_spec {parse : Tok → ℝ} {index : Tok → Option Nat} (showV : ℝ → List Char) (rb : Nat → Nat → Bool) (files : List (List Char)) (h : ∀ f ∈ files, FileOk parse index f) :
    ∃ ss, readInputs parse index showV rb files = some ss ∧ (∀ s ∈ ss, ∃ f ∈ files, readInput parse index showV rb f = some s) ∧
      ∀ f ∈ files, ∃ s ∈ ss, readInput parse index showV rb f = some s := by
  induction files with
  | nil => exact ⟨[], rfl, by simp, by simp⟩
  | cons f fs ih =>
    obtain ⟨ss, e, h1, h2⟩ := ih (fun g hg => h g (by simp [hg]))
    obtain ⟨s, es, _⟩ := readInput_spec showV rb (h f (by simp))
    refine ⟨s :: ss, by simp only [readInputs, es, e], ?_, ?_⟩
    · intro t ht
      rcases List.mem_cons.1 ht with rfl | ht
      · exact ⟨f, by simp, es⟩
      · obtain ⟨g, hg, eg⟩ := h1 t ht
        exact ⟨g, by simp [hg], eg⟩
    · intro g hg
      rcases List.mem_cons.1 hg with rfl | hg
      · exact ⟨s, by simp, es⟩
      · obtain ⟨t, ht, et⟩ := h2 g hg
        exact ⟨t, by simp [ht], et⟩

/-- **C100, the input surface.** If there is a file and every file is well formed, the program gets a surface whose points are points of the files and are at least `1e-8` apart, and
whose faces are triangles with corners in range.  Every vertex of every file is nearer than `2e-8` to one of its points; every face of every file is one of its
faces, corner by corner within `2e-8`, unless two corners of the face are nearer than `4e-8` to each other; every face of the surface is one of a file in this sense. -/
theorem C100_input_surface {parse : Tok → ℝ} {index : Tok → Option Nat} (showV : ℝ → List Char) (rb : Nat → Nat → Bool) (files : List (List Char)) (h0 : files ≠ []) (h : ∀ f ∈ files, FileOk parse index f) :
    ∃ S, inputSurface parse index showV rb files = some S ∧ GoodSurface S ∧ saveObj showV S.points S.faces = some S.text ∧
      (∀ p ∈ S.points, ∃ f ∈ files, p ∈ filePoints parse f) ∧ (∀ f ∈ files, Contains (2 / 10 ^ 8) (filePoints parse f) (fileFaces index f) S) ∧
      ∀ g ∈ S.faces, ∃ f ∈ files, ∃ t ∈ fileFaces index f, NearFace (2 / 10 ^ 8) (filePoints parse f) S.points t g := by
  have single : ∀ f, files = [f] → ∃ S, readInput parse index showV rb f = some S ∧ GoodSurface S ∧ saveObj showV S.points S.faces = some S.text ∧
      (∀ p ∈ S.points, ∃ f ∈ files, p ∈ filePoints parse f) ∧ (∀ f ∈ files, Contains (2 / 10 ^ 8) (filePoints parse f) (fileFaces index f) S) ∧
      ∀ g ∈ S.faces, ∃ f ∈ files, ∃ t ∈ fileFaces index f, NearFace (2 / 10 ^ 8) (filePoints parse f) S.points t g := by
    rintro f rfl
    obtain ⟨S, e, hg, hsub, ht, hc, hb⟩ := readInput_spec showV rb (h f (by simp))
    refine ⟨S, e, hg, ht, fun p hp => ⟨f, by simp, hsub.subset hp⟩, ?_, fun g hg => ?_⟩
    · intro f' hf'
      rw [List.mem_singleton] at hf'; subst hf'
      refine ⟨fun p hp => ?_, fun t ht => ?_⟩
      · obtain ⟨r, hr, hd⟩ := hc.1 p hp
        exact ⟨r, hr, lt_trans hd (by norm_num)⟩
      · rcases hc.2 t ht with ⟨g, hg, hn⟩ | ⟨i, j, a, b, x, y, h1, h2, h3, h4, h5, h6⟩
        · exact Or.inl ⟨g, hg, hn.mono (by norm_num)⟩
        · exact Or.inr ⟨i, j, a, b, x, y, h1, h2, h3, h4, h5, lt_trans h6 (by norm_num)⟩
    · obtain ⟨t, ht, hn⟩ := hb g hg
      exact ⟨f, by simp, t, ht, hn.mono (by norm_num)⟩
  have several : ∃ S, combinedSurface parse index showV rb files = some S ∧ GoodSurface S ∧ saveObj showV S.points S.faces = some S.text ∧
      (∀ p ∈ S.points, ∃ f ∈ files, p ∈ filePoints parse f) ∧ (∀ f ∈ files, Contains (2 / 10 ^ 8) (filePoints parse f) (fileFaces index f) S) ∧
      ∀ g ∈ S.faces, ∃ f ∈ files, ∃ t ∈ fileFaces index f, NearFace (2 / 10 ^ 8) (filePoints parse f) S.points t g := by
    obtain ⟨ss, e, hs1, hs2⟩ := readInputs_spec showV rb files h
    have hT : ∀ s ∈ ss, Triangles s.points s.faces := by
      intro s hs
      obtain ⟨f, hf, ef⟩ := hs1 s hs
      obtain ⟨S, eS, hg, _⟩ := readInput_spec showV rb (h f hf)
      rw [ef] at eS; cases eS
      exact hg.2
    obtain ⟨m1, _, _, m4, m5, m6⟩ := merge_spec ss hT ([], []) (fun f hf => absurd hf (by simp))
    obtain ⟨S, eS, hg, hsub, ht, hc, hb⟩ := weldAndSave_spec showV rb _ _ m1
    have two : (2 : ℝ) / 10 ^ 8 = 1 / 10 ^ 8 + 1 / 10 ^ 8 := by norm_num
    refine ⟨S, by simp only [combinedSurface, e]; exact eS, hg, ht, ?_, ?_, ?_⟩
    · intro p hp
      rcases m6 p (hsub.subset hp) with hq | ⟨s, hs, hq⟩
      · exact absurd hq (by simp)
      · obtain ⟨f, hf, ef⟩ := hs1 s hs
        obtain ⟨S', eS', _, hsub', _⟩ := readInput_spec showV rb (h f hf)
        rw [ef] at eS'; cases eS'
        exact ⟨f, hf, hsub'.subset hq⟩
    · intro f hf
      obtain ⟨s, hs, ef⟩ := hs2 f hf
      obtain ⟨S', eS', _, _, _, hc', _⟩ := readInput_spec showV rb (h f hf)
      rw [ef] at eS'; cases eS'
      obtain ⟨k, hk, hkf⟩ := m4 s hs
      refine ⟨fun p hp => ?_, fun t htf => ?_⟩
      · obtain ⟨r, hr, hd⟩ := hc'.1 p hp
        obtain ⟨c, hcl, rfl⟩ := List.getElem_of_mem hr
        obtain ⟨q, hq, hd'⟩ := hc.1 _ (List.mem_of_getElem? (hk c _ (List.getElem?_eq_getElem hcl)))
        exact ⟨q, hq, by have := euclid_triangle 3 p s.points[c] q; rw [two]; linarith⟩
      · rcases hc'.2 t htf with ⟨g, hg, hn⟩ | ⟨i, j, a, b, x, y, h1, h2, h3, h4, h5, h6⟩
        · have hn' := hn.shift hk
          rcases hc.2 _ (hkf g hg) with ⟨g', hg', hn2⟩ | hcol
          · exact Or.inl ⟨g', hg', by rw [two]; exact hn'.trans hn2⟩
          · right
            have := hn'.collapsed hcol
            have e4 : 2 * (1 / 10 ^ 8) + 2 * (1 / 10 ^ 8) = 2 * ((2 : ℝ) / 10 ^ 8) := by norm_num
            rwa [e4] at this
        · exact Or.inr ⟨i, j, a, b, x, y, h1, h2, h3, h4, h5, lt_trans h6 (by norm_num)⟩
    · intro g hgf
      obtain ⟨g0, hg0, hn⟩ := hb g hgf
      rcases m5 g0 hg0 with hq | ⟨s, hs, k, hk, f, hff, rfl⟩
      · exact absurd hq (by simp)
      · obtain ⟨file, hfile, ef⟩ := hs1 s hs
        obtain ⟨S', eS', _, _, _, _, hb'⟩ := readInput_spec showV rb (h file hfile)
        rw [ef] at eS'; cases eS'
        obtain ⟨t, htf, hn'⟩ := hb' f hff
        exact ⟨file, hfile, t, htf, by rw [two]; exact (hn'.shift hk).trans hn⟩
  match hfiles : files with
  | [] => exact absurd rfl h0
  | [f] => simpa only [inputSurface] using single f rfl
  | f :: g :: fs => simpa only [inputSurface] using several

/-! ## Reading `clean.obj` or `model_combined.obj` again -/

theorem arrayPt_of_mem {parse : Tok → ℝ} {f : List Char} {p : Nat → ℝ} (h : p ∈ filePoints parse f) : arrayPt (p 0, p 1, p 2) = p := by
  simp only [filePoints, List.mem_map] at h
  obtain ⟨q, _, rfl⟩ := h
  rfl

theorem arrayFace_first {f : List Nat} (h : f.length = 3) : arrayFace (firstThree f) = f := by
  match f, h with
  | [a, b, c], _ => rfl

/-- **C100, the input surface can be used again.** The file written for the surface, given as the only input, is read as the same surface, with the points and the
faces in the same order, and is written again with the same text, if its coordinates have at most sixteen digits (are printed exactly) and it has at most `2^53` points. -/
theorem C100_reread {showV : ℝ → List Char} {parse : Tok → ℝ} {index : Tok → Option Nat} {rd : ℝ → ℝ} (hP : ObjPrinting showV parse index rd) (rb : Nat → Nat → Bool)
    (files : List (List Char)) (h : ∀ f ∈ files, FileOk parse index f) (S : SavedSurface) (hS : inputSurface parse index showV rb files = some S)
    (hn : S.points.length ≤ 2 ^ 53) (he : ∀ p ∈ S.points, rd (p 0) = p 0 ∧ rd (p 1) = p 1 ∧ rd (p 2) = p 2) :
    inputSurface parse index showV rb [S.text] = some S := by
  have h0 : files ≠ [] := by rintro rfl; simp [inputSurface] at hS
  obtain ⟨S', e, hg, ht, hp, _, _⟩ := C100_input_surface showV rb files h0 h
  rw [hS] at e; cases e
  obtain ⟨t, et, hr⟩ := C100_round_trip hP S.points S.faces (fun f hf => ⟨(hg.2 f hf).1.ge, fun c hc => lt_of_lt_of_le ((hg.2 f hf).2 c hc) hn⟩)
  rw [ht] at et; cases et
  have e1 : (S.points.map (fun p => (rd (p 0), rd (p 1), rd (p 2)))).map arrayPt = S.points := by
    rw [List.map_map]
    conv_rhs => rw [← List.map_id S.points]
    refine List.map_congr_left (fun p hpS => ?_)
    obtain ⟨a, b, c⟩ := he p hpS
    obtain ⟨f, _, hf⟩ := hp p hpS
    simp only [Function.comp, a, b, c, arrayPt_of_mem hf, id]
  have e2 : (S.faces.map firstThree).map arrayFace = S.faces := by
    rw [List.map_map]
    conv_rhs => rw [← List.map_id S.faces]
    exact List.map_congr_left (fun f hf => arrayFace_first (hg.2 f hf).1)
  simp only [inputSurface, readInput, hr, weldAndSave, e1, e2, weld_apart rb (by norm_num) S.points S.faces hg.1, ht, Option.map_some]

/-! ## Sixteen digits -/

/-- `rd` is the nearest number with fifteen decimals for the numbers between 1 and 2: what sixteen digits give. -/
def SixteenDigits (rd : ℝ → ℝ) : Prop := rd 0 = 0 ∧ ∀ x, 1 ≤ x → x < 2 → ∃ k : ℤ, rd x = k / 10 ^ 15 ∧ |rd x - x| ≤ 1 / 2 / 10 ^ 15

theorem SixteenDigits.value {rd : ℝ → ℝ} (h : SixteenDigits rd) (k : ℤ) (e : ℝ) (h1 : (10 : ℝ) ^ 15 ≤ k + e) (h2 : (k : ℝ) + e < 2 * 10 ^ 15) (he : |e| < 1 / 2) :
    rd ((k + e) / 10 ^ 15) = k / 10 ^ 15 := by
  obtain ⟨j, hj, hd⟩ := h.2 ((k + e) / 10 ^ 15) (by rw [le_div_iff₀ (by norm_num)]; linarith) (by rw [div_lt_iff₀ (by norm_num)]; linarith)
  rw [hj] at hd ⊢
  have e1 : (j : ℝ) / 10 ^ 15 - (k + e) / 10 ^ 15 = (j - k - e) / 10 ^ 15 := by ring
  rw [e1, abs_div, abs_of_pos (show (0 : ℝ) < 10 ^ 15 by norm_num), div_le_div_iff_of_pos_right (by norm_num)] at hd
  have hb := abs_le.1 hd
  have hc := abs_lt.1 he
  have u1 : ((j - k : ℤ) : ℝ) < 1 := by push_cast; linarith [hb.2]
  have u2 : (-1 : ℝ) < ((j - k : ℤ) : ℝ) := by push_cast; linarith [hb.1]
  have : j - k = 0 := by
    have v1 : j - k < 1 := by exact_mod_cast u1
    have v2 : -1 < j - k := by exact_mod_cast u2
    omega
  have : j = k := by omega
  rw [this]

/-- A point near `(1, 1, 0)`: `a` and `b` are in units of `1e-15`. -/
noncomputable def nearOne (a b : ℝ) : Nat → ℝ := arrayPt ((10 ^ 15 + a) / 10 ^ 15, (10 ^ 15 + b) / 10 ^ 15, 0)

theorem nearOne_sq (a b : ℝ) : euclid 3 (nearOne a b) (nearOne 0 0) ^ 2 = (a ^ 2 + b ^ 2) / 10 ^ 30 := by
  rw [euclid, Real.sq_sqrt (by positivity)]
  simp only [Finset.sum_range_succ, Finset.sum_range_zero, nearOne, arrayPt]
  norm_num
  ring

/-- **C100 needs numbers of sixteen digits.** Two points that the program keeps apart can be written so that reading the file merges them: the points `(1, 1, 0)` and
`(1.0000000060000014, 1.0000000079999994, 0)` are more than `1e-8` apart, but with sixteen digits the second is written as `(1.000000006000001, 1.000000007999999, 0)`. -/
theorem C100_digits_false {showV : ℝ → List Char} {parse : Tok → ℝ} {index : Tok → Option Nat} {rd : ℝ → ℝ} (hP : ObjPrinting showV parse index rd) (h16 : SixteenDigits rd) (rb : Nat → Nat → Bool) :
    ∃ S S', weldAndSave showV rb [nearOne 0 0, nearOne 6000001.4 7999999.4] [] = some S ∧ S.points.length = 2 ∧ GoodSurface S ∧
      inputSurface parse index showV rb [S.text] = some S' ∧ S'.points.length = 1 := by
  have d0 : (0 : ℝ) < 1 / 10 ^ 8 := by norm_num
  have hap : PairwiseApart (1 / 10 ^ 8) [nearOne 0 0, nearOne 6000001.4 7999999.4] := by
    refine List.pairwise_pair.2 ?_
    refine le_of_sq_le_sq ?_ (euclid_nonneg _ _ _)
    rw [nearOne_sq]
    norm_num
  obtain ⟨t, et, hr⟩ := C100_round_trip hP [nearOne 0 0, nearOne 6000001.4 7999999.4] [] (by simp)
  have hw := weld_apart rb d0 _ [] hap
  have one : rd 1 = 1 := by
    have := h16.value (10 ^ 15) 0 (by norm_num) (by norm_num) (by norm_num)
    norm_num at this
    exact this
  have hx : rd ((10 ^ 15 + 6000001.4) / 10 ^ 15) = (10 ^ 15 + 6000001) / 10 ^ 15 := by
    have := h16.value (10 ^ 15 + 6000001) 0.4 (by norm_num) (by norm_num) (by norm_num [abs_lt])
    norm_num at this ⊢
    exact this
  have hy : rd ((10 ^ 15 + 7999999.4) / 10 ^ 15) = (10 ^ 15 + 7999999) / 10 ^ 15 := by
    have := h16.value (10 ^ 15 + 7999999) 0.4 (by norm_num) (by norm_num) (by norm_num [abs_lt])
    norm_num at this ⊢
    exact this
  have e1 : ([nearOne 0 0, nearOne 6000001.4 7999999.4].map (fun p => (rd (p 0), rd (p 1), rd (p 2)))).map arrayPt = [nearOne 0 0, nearOne 6000001 7999999] := by
    have a1 : (fun p : Nat → ℝ => arrayPt (rd (p 0), rd (p 1), rd (p 2))) (nearOne 0 0) = nearOne 0 0 := by
      have : ((10 : ℝ) ^ 15 + 0) / 10 ^ 15 = 1 := by norm_num
      simp only [nearOne, arrayPt, this]
      norm_num [one, h16.1]
    have a2 : (fun p : Nat → ℝ => arrayPt (rd (p 0), rd (p 1), rd (p 2))) (nearOne 6000001.4 7999999.4) = nearOne 6000001 7999999 := by
      have b0 : nearOne 6000001.4 7999999.4 0 = (10 ^ 15 + 6000001.4) / 10 ^ 15 := rfl
      have b1 : nearOne 6000001.4 7999999.4 1 = (10 ^ 15 + 7999999.4) / 10 ^ 15 := rfl
      have b2 : nearOne 6000001.4 7999999.4 2 = 0 := rfl
      simp only [b0, b1, b2, hx, hy, h16.1]
      rfl
    simp only [List.map_cons, List.map_nil]
    rw [show arrayPt (rd (nearOne 0 0 0), rd (nearOne 0 0 1), rd (nearOne 0 0 2)) = nearOne 0 0 from a1,
      show arrayPt (rd (nearOne 6000001.4 7999999.4 0), rd (nearOne 6000001.4 7999999.4 1), rd (nearOne 6000001.4 7999999.4 2)) = nearOne 6000001 7999999 from a2]
  obtain ⟨S', eS', hg, hsub, _⟩ := weldAndSave_spec showV rb [nearOne 0 0, nearOne 6000001 7999999] [] (fun f hf => absurd hf (by simp))
  have hclose : euclid 3 (nearOne 6000001 7999999) (nearOne 0 0) < 1 / 10 ^ 8 := by
    refine lt_of_pow_lt_pow_left₀ 2 d0.le ?_
    rw [nearOne_sq]
    norm_num
  refine ⟨⟨_, [], t⟩, S', by simp only [weldAndSave, hw, et, Option.map_some], rfl, ⟨hap, fun f hf => absurd hf (by simp)⟩, ?_, ?_⟩
  · simp only [inputSurface, readInput, hr]
    rw [show (([] : List (List Nat)).map firstThree).map arrayFace = [] from rfl, e1]
    exact eS'
  · have hle : S'.points.length ≤ 2 := hsub.length_le
    have hne : S'.points.length ≠ 2 := by
      intro hl
      have := hsub.eq_of_length hl
      have hpa := hg.1
      rw [this] at hpa
      have := List.pairwise_pair.1 hpa
      linarith
    have hpos : S'.points ≠ [] := by
      intro hnil
      obtain ⟨S'', e'', _, _, _, hc, _⟩ := weldAndSave_spec showV rb [nearOne 0 0, nearOne 6000001 7999999] [] (fun f hf => absurd hf (by simp))
      rw [eS'] at e''; cases e''
      obtain ⟨r, hr, _⟩ := hc.1 (nearOne 0 0) (by simp)
      rw [hnil] at hr; exact absurd hr (by simp)
    have : 0 < S'.points.length := List.length_pos_of_ne_nil hpos
    omega

/-! ## A printing -/

/-- Printing in units of `1e-15`. -/
noncomputable def unitShow (x : ℝ) : List Char := if 0 ≤ round (x * 10 ^ 15) then Nat.toDigits 10 (round (x * 10 ^ 15)).natAbs else '-' :: Nat.toDigits 10 (round (x * 10 ^ 15)).natAbs

/-- Reading in units of `1e-15`. -/
noncomputable def unitParse (t : Tok) : ℝ := if t.head? = some '-' then -(Nat.ofDigitChars 10 t.tail 0 : ℝ) / 10 ^ 15 else (Nat.ofDigitChars 10 t 0 : ℝ) / 10 ^ 15

/-- Reading a corner. -/
def unitIndex (t : Tok) : Option Nat := if 0 < Nat.ofDigitChars 10 t 0 then some (Nat.ofDigitChars 10 t 0 - 1) else none

/-- There is such a printing. -/
theorem unit_printing : ObjPrinting unitShow unitParse unitIndex (fun x => (round (x * 10 ^ 15) : ℝ) / 10 ^ 15) ∧ SixteenDigits (fun x => (round (x * 10 ^ 15) : ℝ) / 10 ^ 15) := by
  refine ⟨⟨?_, ?_, ?_, ?_⟩, by simp, ?_⟩
  · intro v c hc
    unfold unitShow at hc
    by_cases h : 0 ≤ round (v * 10 ^ 15)
    · rw [if_pos h] at hc; exact (digits_solid _ c hc).1
    · rw [if_neg h] at hc
      rcases List.mem_cons.1 hc with rfl | hc
      · decide
      · exact (digits_solid _ c hc).1
  · intro v
    unfold unitShow
    by_cases h : 0 ≤ round (v * 10 ^ 15)
    · rw [if_pos h]; exact Nat.toDigits_ne_nil
    · rw [if_neg h]; simp
  · intro v
    unfold unitShow
    by_cases h : 0 ≤ round (v * 10 ^ 15)
    · rw [if_pos h, unitParse, if_neg, Nat.ofDigitChars_toDigits (by norm_num) (by norm_num)]
      · congr 1
        rw [Nat.cast_natAbs, abs_of_nonneg h]
      · intro hh
        have hm := List.mem_of_head? hh
        have := Nat.isDigit_of_mem_toDigits (by norm_num) (by norm_num) hm
        exact absurd this (by decide)
    · rw [if_neg h, unitParse, if_pos (by rfl), List.tail_cons, Nat.ofDigitChars_toDigits (by norm_num) (by norm_num)]
      congr 1
      rw [Nat.cast_natAbs, abs_of_nonpos (by omega)]
      push_cast
      ring
  · intro n _
    rw [unitIndex, Nat.ofDigitChars_toDigits (by norm_num) (by norm_num), if_pos (by omega)]
    simp
  · intro x _ _
    refine ⟨round (x * 10 ^ 15), rfl, ?_⟩
    have := abs_sub_round (x * 10 ^ 15)
    have e : (round (x * 10 ^ 15) : ℝ) / 10 ^ 15 - x = -((x * 10 ^ 15 - round (x * 10 ^ 15)) / 10 ^ 15) := by
      field_simp
      ring
    simp only [e, abs_neg, abs_div, abs_of_pos (show (0 : ℝ) < 10 ^ 15 by norm_num)]
    exact div_le_div_of_nonneg_right this (by norm_num)

/-- A triangle in a file. -/
def triangleFile : List Char := "v 0 0 0\nv 1000000000000000 0 0\nv 0 1000000000000000 0\nf 1 2/7 3\n".toList

theorem triangleFile_words : (fileLines triangleFile).map words =
    [["v".toList, "0".toList, "0".toList, "0".toList], ["v".toList, "1000000000000000".toList, "0".toList, "0".toList], ["v".toList, "0".toList, "1000000000000000".toList, "0".toList],
      ["f".toList, "1".toList, "2/7".toList, "3".toList]] := by decide +kernel

theorem triangleFile_ok : FileOk unitParse unitIndex triangleFile := by
  have e1 : unitIndex (cutSlash "1".toList) = some 0 := by decide +kernel
  have e2 : unitIndex (cutSlash "2/7".toList) = some 1 := by decide +kernel
  have e3 : unitIndex (cutSlash "3".toList) = some 2 := by decide +kernel
  refine ⟨?_, ?_⟩
  · rw [triangleFile_words]
    intro t ht
    simp only [List.mem_cons, List.not_mem_nil, or_false] at ht
    rcases ht with rfl | rfl | rfl | rfl
    · exact ⟨by simp, by simp⟩
    · exact ⟨by simp, by simp⟩
    · exact ⟨by simp, by simp⟩
    · exact ⟨by simp, fun _ => ⟨_, _, _, [], rfl, by rw [e1]; rfl, by rw [e2]; rfl, by rw [e3]; rfl⟩⟩
  · have hp : (filePoints unitParse triangleFile).length = 3 := by simp [filePoints, triangleFile_words, objPoints]
    have hf : fileFaces unitIndex triangleFile = [[0, 1, 2]] := by
      rw [fileFaces, triangleFile_words]
      decide +kernel
    rw [hp, hf]
    decide

-- the hypotheses can be met: the triangle alone, and twice
example : ∃ S, inputSurface unitParse unitIndex unitShow (fun _ _ => false) [triangleFile, triangleFile] = some S ∧ GoodSurface S := by
  obtain ⟨S, e, hg, _⟩ := C100_input_surface unitShow (fun _ _ => false) [triangleFile, triangleFile] (by simp) (by
    intro f hf
    simp only [List.mem_cons, List.not_mem_nil, or_false, or_self] at hf
    subst hf
    exact triangleFile_ok)
  exact ⟨S, e, hg⟩

example : ∃ S S', weldAndSave unitShow (fun _ _ => false) [nearOne 0 0, nearOne 6000001.4 7999999.4] [] = some S ∧ S.points.length = 2 ∧
    inputSurface unitParse unitIndex unitShow (fun _ _ => false) [S.text] = some S' ∧ S'.points.length = 1 := by
  obtain ⟨S, S', h1, h2, _, h4, h5⟩ := C100_digits_false unit_printing.1 unit_printing.2 (fun _ _ => false)
  exact ⟨S, S', h1, h2, h4, h5⟩

example : ∃ S, inputSurface unitParse unitIndex unitShow (fun _ _ => false) [triangleFile] = some S ∧ inputSurface unitParse unitIndex unitShow (fun _ _ => false) [S.text] = some S := by
  have hok : ∀ f ∈ [triangleFile], FileOk unitParse unitIndex f := by
    intro f hf
    rw [List.mem_singleton] at hf
    rw [hf]; exact triangleFile_ok
  obtain ⟨S, e, hg, _, hp, _, _⟩ := C100_input_surface unitShow (fun _ _ => false) [triangleFile] (by simp) hok
  have v0 : unitParse "0".toList = 0 := by
    rw [unitParse, if_neg (by decide), show Nat.ofDigitChars 10 "0".toList 0 = 0 by decide +kernel]; simp
  have v1 : unitParse "1000000000000000".toList = 1 := by
    rw [unitParse, if_neg (by decide), show Nat.ofDigitChars 10 "1000000000000000".toList 0 = 1000000000000000 by decide +kernel]; norm_num
  have r0 : (round ((0 : ℝ) * 10 ^ 15) : ℝ) / 10 ^ 15 = 0 := by simp
  have r1 : (round ((1 : ℝ) * 10 ^ 15) : ℝ) / 10 ^ 15 = 1 := by
    have : round ((1 : ℝ) * 10 ^ 15) = 10 ^ 15 := by
      rw [one_mul]; exact_mod_cast round_natCast (α := ℝ) (10 ^ 15)
    rw [this]; norm_num
  have hpts : filePoints unitParse triangleFile = [arrayPt (0, 0, 0), arrayPt (1, 0, 0), arrayPt (0, 1, 0)] := by
    have : objPoints unitParse ((fileLines triangleFile).map words) = [(0, 0, 0), (1, 0, 0), (0, 1, 0)] := by
      rw [triangleFile_words, ← v0, ← v1]; rfl
    rw [filePoints, this]; rfl
  have hmem : ∀ p ∈ S.points, p = arrayPt (0, 0, 0) ∨ p = arrayPt (1, 0, 0) ∨ p = arrayPt (0, 1, 0) := by
    intro p hpS
    obtain ⟨f, hf, hpf⟩ := hp p hpS
    rw [List.mem_singleton] at hf
    rw [hf, hpts] at hpf
    simpa using hpf
  obtain ⟨S', e', _, hsub, _⟩ := readInput_spec (parse := unitParse) (index := unitIndex) unitShow (fun _ _ => false) triangleFile_ok
  have hlen : S.points.length ≤ 3 := by
    simp only [inputSurface] at e
    rw [e] at e'; cases e'
    have := hsub.length_le
    rw [hpts] at this; exact this
  refine ⟨S, e, C100_reread unit_printing.1 _ _ hok S e (le_trans hlen (by norm_num)) ?_⟩
  intro p hpS
  rcases hmem p hpS with rfl | rfl | rfl <;> exact ⟨by simp only [arrayPt]; norm_num [r0, r1], by simp only [arrayPt]; norm_num [r0, r1], by simp only [arrayPt]; norm_num [r0, r1]⟩

end VoroCrust
