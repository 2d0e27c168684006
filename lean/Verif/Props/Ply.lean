import Verif.Model.Ply
import Verif.Props.ObjFile

/-! # Property C114: the PLY files of the Voronoi mesh -/

namespace VoroCrust

/-! ## What a PLY file means -/

/-- An element declared in the header: its name, how many there are and the words of its properties. -/
structure PlyElement where
  name : Tok
  count : Nat
  props : List (List Tok)
  deriving DecidableEq

/-- The lines of a header up to `end_header`: the elements declared, the last one first, and the lines after it. -/
def plyDeclared (num : Tok → Option Nat) : List (List Tok) → List PlyElement → Option (List PlyElement × List (List Tok))
  | [], _ => none
  | [] :: _, _ => none
  | (k :: ws) :: ls, acc =>
    if k = "end_header".toList then some (acc.reverse, ls)
    else if k = "comment".toList then plyDeclared num ls acc
    else if k = "element".toList then
      match ws with
      | [name, n] => match num n with
        | none => none
        | some n => plyDeclared num ls (⟨name, n, []⟩ :: acc)
      | _ => none
    else if k = "property".toList then
      match acc with
      | [] => none
      | e :: es => plyDeclared num ls ({ e with props := e.props ++ [ws] } :: es)
    else none

/-- A line of three numbers. -/
def plyPoint {V : Type} (parse : Tok → V) : List Tok → Option (List V)
  | [a, b, c] => some [parse a, parse b, parse c]
  | _ => none

/-- An index of type `int`. -/
def plyInt (num : Tok → Option Nat) (t : Tok) : Option Nat :=
  match num t with
  | none => none
  | some n => if n < 2 ^ 31 then some n else none

/-- A line holding `list uchar int`: a number of type `uchar` and as many indices. -/
def plyPolygon (num : Tok → Option Nat) : List Tok → Option (List Nat)
  | [] => none
  | n :: cs =>
    match num n with
    | none => none
    | some k => if k < 256 ∧ cs.length = k then cs.mapM (plyInt num) else none

/-- The coordinates and the polygons of an ASCII file with vertices `x y z` and faces `vertex_indices`. -/
def readPly {V : Type} (parse : Tok → V) (num : Tok → Option Nat) (file : List Char) : Option (List V × List (List Nat)) :=
  match (fileLines file).map words with
  | magic :: format :: ls =>
    if magic = ["ply".toList] ∧ format = ["format".toList, "ascii".toList, "1.0".toList] then
      match plyDeclared num ls [] with
      | some ([v, f], body) =>
        if v.name = "vertex".toList ∧ v.props = [["float".toList, "x".toList], ["float".toList, "y".toList], ["float".toList, "z".toList]] ∧ f.name = "face".toList ∧
            f.props = [["list".toList, "uchar".toList, "int".toList, "vertex_indices".toList]] ∧ body.length = v.count + f.count then
          match (body.take v.count).mapM (plyPoint parse), (body.drop v.count).mapM (plyPolygon num) with
          | some ps, some gs => some (ps.flatten, gs)
          | _, _ => none
        else none
      | _ => none
    else none
  | _ => none

/-- What is used of printing and parsing: a printed coordinate is one word which is read back as `rd v` (six digits), and indices are read back. -/
structure PlyPrinting {V : Type} (showV : V → List Char) (parse : Tok → V) (num : Tok → Option Nat) (rd : V → V) : Prop where
  solid : ∀ v, ∀ c ∈ showV v, isWs c = false
  nonempty : ∀ v, showV v ≠ []
  coord : ∀ v, parse (showV v) = rd v
  index : ∀ n, num (Nat.toDigits 10 n) = some n

/-! ## Lines -/

theorem words_join (t : Tok) (ts : List Tok) (h : ∀ u ∈ t :: ts, u ≠ [] ∧ ∀ c ∈ u, isWs c = false) : words (t ++ ts.flatMap (fun u => ' ' :: u)) = t :: ts := by
  induction ts generalizing t with
  | nil =>
    have := C13_words [] [] t (by simp) (by simp) (h t (by simp)).2
    rw [if_neg (h t (by simp)).1] at this
    simpa using this
  | cons u us ih =>
    have ht := h t (by simp)
    have e := ih u (fun w hw => h w (by simp only [List.mem_cons] at hw ⊢; tauto))
    have key : ∀ (l rest : List Char) (cur : Tok), (∀ c ∈ l, isWs c = false) → cur ++ l ≠ [] → wordsGo (l ++ ' ' :: rest) cur = (cur ++ l) :: wordsGo rest [] := by
      intro l
      induction l with
      | nil =>
        intro rest cur _ hc
        rw [List.append_nil] at hc
        simp [wordsGo, show isWs ' ' = true by decide, hc]
      | cons c l ih2 =>
        intro rest cur hs hc
        have h1 := hs c (by simp)
        simp only [List.cons_append, wordsGo, h1, Bool.false_eq_true, if_false]
        rw [ih2 rest (cur ++ [c]) (fun x hx => hs x (by simp [hx])) (by simp)]
        simp
    have := key t (u ++ us.flatMap (fun u => ' ' :: u)) [] ht.2 (by simpa using ht.1)
    simp only [words, List.flatMap_cons, List.cons_append] at e ⊢
    rw [this, e]
    simp

theorem join_noline (t : Tok) (ts : List Tok) (h : ∀ u ∈ t :: ts, u ≠ [] ∧ ∀ c ∈ u, isWs c = false) : '\n' ∉ t ++ ts.flatMap (fun u => ' ' :: u) := by
  intro hc
  rcases List.mem_append.1 hc with hc | hc
  · exact solid_noline (h t (by simp)).2 hc
  · obtain ⟨u, hu, hc⟩ := List.mem_flatMap.1 hc
    rcases List.mem_cons.1 hc with hc | hc
    · exact absurd hc (by decide)
    · exact solid_noline (h u (by simp [hu])).2 hc

/-- The first line of a file and the rest. -/
theorem first_line (t : Tok) (ts : List Tok) (rest : List Char) (h : ∀ u ∈ t :: ts, u ≠ [] ∧ ∀ c ∈ u, isWs c = false) :
    (fileLines (t ++ ts.flatMap (fun u => ' ' :: u) ++ ['\n'] ++ rest)).map words = (t :: ts) :: (fileLines rest).map words := by
  rw [fileLines_cons _ _ (join_noline t ts h), List.map_cons, words_join t ts h]

theorem digits_word (n : Nat) : Nat.toDigits 10 n ≠ [] ∧ ∀ c ∈ Nat.toDigits 10 n, isWs c = false := ⟨Nat.toDigits_ne_nil, fun c hc => (digits_solid n c hc).1⟩

/-- The lines of the header. -/
theorem plyHeader_lines (nv nf : Nat) (rest : List Char) :
    (fileLines (plyHeader nv nf ++ rest)).map words =
      [["ply".toList], ["format".toList, "ascii".toList, "1.0".toList], ["comment".toList, "VoroCrust".toList, "generated".toList], ["element".toList, "vertex".toList, Nat.toDigits 10 nv],
        ["property".toList, "float".toList, "x".toList], ["property".toList, "float".toList, "y".toList], ["property".toList, "float".toList, "z".toList],
        ["element".toList, "face".toList, Nat.toDigits 10 nf], ["property".toList, "list".toList, "uchar".toList, "int".toList, "vertex_indices".toList], ["end_header".toList]] ++
      (fileLines rest).map words := by
  have d1 := digits_word nv
  have d2 := digits_word nf
  have e : plyHeader nv nf ++ rest =
      "ply".toList ++ ([] : List Tok).flatMap (fun u => ' ' :: u) ++ ['\n'] ++ ("format".toList ++ ["ascii".toList, "1.0".toList].flatMap (fun u => ' ' :: u) ++ ['\n'] ++
      ("comment".toList ++ ["VoroCrust".toList, "generated".toList].flatMap (fun u => ' ' :: u) ++ ['\n'] ++
      ("element".toList ++ ["vertex".toList, Nat.toDigits 10 nv].flatMap (fun u => ' ' :: u) ++ ['\n'] ++
      ("property".toList ++ ["float".toList, "x".toList].flatMap (fun u => ' ' :: u) ++ ['\n'] ++ ("property".toList ++ ["float".toList, "y".toList].flatMap (fun u => ' ' :: u) ++ ['\n'] ++
      ("property".toList ++ ["float".toList, "z".toList].flatMap (fun u => ' ' :: u) ++ ['\n'] ++
      ("element".toList ++ ["face".toList, Nat.toDigits 10 nf].flatMap (fun u => ' ' :: u) ++ ['\n'] ++
      ("property".toList ++ ["list".toList, "uchar".toList, "int".toList, "vertex_indices".toList].flatMap (fun u => ' ' :: u) ++ ['\n'] ++
      ("end_header".toList ++ ([] : List Tok).flatMap (fun u => ' ' :: u) ++ ['\n'] ++ rest))))))))) := by
    have a1 : "element vertex ".toList = "element".toList ++ (' ' :: ("vertex".toList ++ [' '])) := by decide
    have a2 : "element face ".toList = "element".toList ++ (' ' :: ("face".toList ++ [' '])) := by decide
    have b1 : plyLine "ply" = "ply".toList ++ ([] : List Tok).flatMap (fun u => ' ' :: u) ++ ['\n'] := by decide
    have b2 : plyLine "format ascii 1.0" = "format".toList ++ ["ascii".toList, "1.0".toList].flatMap (fun u => ' ' :: u) ++ ['\n'] := by decide
    have b3 : plyLine "comment VoroCrust generated" = "comment".toList ++ ["VoroCrust".toList, "generated".toList].flatMap (fun u => ' ' :: u) ++ ['\n'] := by decide
    have b4 : plyLine "property float x" = "property".toList ++ ["float".toList, "x".toList].flatMap (fun u => ' ' :: u) ++ ['\n'] := by decide
    have b5 : plyLine "property float y" = "property".toList ++ ["float".toList, "y".toList].flatMap (fun u => ' ' :: u) ++ ['\n'] := by decide
    have b6 : plyLine "property float z" = "property".toList ++ ["float".toList, "z".toList].flatMap (fun u => ' ' :: u) ++ ['\n'] := by decide
    have b7 : plyLine "property list uchar int vertex_indices" =
        "property".toList ++ ["list".toList, "uchar".toList, "int".toList, "vertex_indices".toList].flatMap (fun u => ' ' :: u) ++ ['\n'] := by decide
    have b8 : plyLine "end_header" = "end_header".toList ++ ([] : List Tok).flatMap (fun u => ' ' :: u) ++ ['\n'] := by decide
    rw [plyHeader, a1, a2, b1, b2, b3, b4, b5, b6, b7, b8]
    simp only [List.append_assoc, List.flatMap_cons, List.flatMap_nil, List.cons_append, List.nil_append]
  rw [e]
  rw [first_line _ _ _ (by decide), first_line _ _ _ (by decide), first_line _ _ _ (by decide), first_line, first_line _ _ _ (by decide), first_line _ _ _ (by decide),
    first_line _ _ _ (by decide), first_line, first_line _ _ _ (by decide), first_line _ _ _ (by decide)]
  · rfl
  · intro u hu
    simp only [List.mem_cons, List.not_mem_nil, or_false] at hu
    rcases hu with rfl | rfl | rfl
    · decide
    · decide
    · exact d2
  · intro u hu
    simp only [List.mem_cons, List.not_mem_nil, or_false] at hu
    rcases hu with rfl | rfl | rfl
    · decide
    · decide
    · exact d1

/-- The lines of the vertices. -/
theorem plyVertices_lines {V : Type} {showV : V → List Char} {parse : Tok → V} {num : Tok → Option Nat} {rd : V → V} (hP : PlyPrinting showV parse num rd) (vs : List V) (rest : List Char) :
    ∀ n i, vs.length = 3 * (i + n) → ∃ t ls, plyVertices showV vs n i = some t ∧ (fileLines (t ++ rest)).map words = ls ++ (fileLines rest).map words ∧ ls.length = n ∧
      ∃ ps, ls.mapM (plyPoint parse) = some ps ∧ ps.flatten = (vs.drop (3 * i)).map rd := by
  intro n
  induction n with
  | zero =>
    intro i hl
    refine ⟨[], [], rfl, by simp, rfl, [], rfl, ?_⟩
    rw [List.drop_eq_nil_of_le (by omega)]
    rfl
  | succ n ih =>
    intro i hl
    obtain ⟨t, ls, e1, e2, e3, ps, e4, e5⟩ := ih (i + 1) (by omega)
    have h0 : i * 3 < vs.length := by omega
    have h1 : i * 3 + 1 < vs.length := by omega
    have h2 : i * 3 + 2 < vs.length := by omega
    refine ⟨showV vs[i * 3] ++ " ".toList ++ showV vs[i * 3 + 1] ++ " ".toList ++ showV vs[i * 3 + 2] ++ ['\n'] ++ t,
      [showV vs[i * 3], showV vs[i * 3 + 1], showV vs[i * 3 + 2]] :: ls, ?_, ?_, by simp [e3], [rd vs[i * 3], rd vs[i * 3 + 1], rd vs[i * 3 + 2]] :: ps, ?_, ?_⟩
    · simp only [plyVertices, plyVertex, List.getElem?_eq_getElem h0, List.getElem?_eq_getElem h1, List.getElem?_eq_getElem h2, e1]
    · have := first_line (showV vs[i * 3]) [showV vs[i * 3 + 1], showV vs[i * 3 + 2]] (t ++ rest) (by
        intro u hu
        simp only [List.mem_cons, List.not_mem_nil, or_false] at hu
        rcases hu with rfl | rfl | rfl <;> exact ⟨hP.nonempty _, hP.solid _⟩)
      rw [e2] at this
      simpa using this
    · simp only [List.mapM_cons, plyPoint, hP.coord, e4]
      rfl
    · rw [List.flatten_cons, e5, show 3 * i = i * 3 by omega, List.drop_eq_getElem_cons h0, List.drop_eq_getElem_cons h1, List.drop_eq_getElem_cons h2]
      rw [show 3 * (i + 1) = i * 3 + 2 + 1 by omega]
      rfl

theorem plyCorners_eq (cs rest : List Nat) : plyCorners cs.length (cs ++ rest) = some (cs.flatMap fun c => ' ' :: Nat.toDigits 10 c) := by
  induction cs with
  | nil => simp [plyCorners]
  | cons c cs ih => simp [plyCorners, ih]

theorem ints_eq {num : Tok → Option Nat} (hn : ∀ n, num (Nat.toDigits 10 n) = some n) (cs : List Nat) (h : ∀ c ∈ cs, c < 2 ^ 31) :
    (cs.map (Nat.toDigits 10)).mapM (plyInt num) = some cs := by
  induction cs with
  | nil => rfl
  | cons c cs ih =>
    have hc : c < 2 ^ 31 := h c (by simp)
    rw [List.map_cons, List.mapM_cons, ih (fun d hd => h d (by simp [hd]))]
    simp only [plyInt, hn, if_pos hc]
    rfl

/-- The arrays of faces as `generate_3d_voronoi_mesh` makes them: the number of corners, the corners, and further entries. -/
def PlyFaceIs (f cs : List Nat) : Prop := ∃ rest, f = cs.length :: (cs ++ rest)

theorem plyFace_line (rest' : List Char) {f cs : List Nat} (h : PlyFaceIs f cs) :
    ∃ t, plyFace f = some t ∧ (fileLines (t ++ rest')).map words = (Nat.toDigits 10 cs.length :: cs.map (Nat.toDigits 10)) :: (fileLines rest').map words := by
  obtain ⟨rest, rfl⟩ := h
  refine ⟨Nat.toDigits 10 cs.length ++ cs.flatMap (fun c => ' ' :: Nat.toDigits 10 c) ++ ['\n'], by simp only [plyFace, plyCorners_eq], ?_⟩
  have := first_line (Nat.toDigits 10 cs.length) (cs.map (Nat.toDigits 10)) rest' (by
    intro u hu
    rcases List.mem_cons.1 hu with rfl | hu
    · exact digits_word _
    · obtain ⟨c, -, rfl⟩ := List.mem_map.1 hu
      exact digits_word c)
  rw [List.flatMap_map] at this
  exact this

/-- The lines of the faces: those whose flag is set. -/
theorem plyFaces_lines (rest : List Char) (fs : List (List Nat × List Nat × Bool)) (h : ∀ f ∈ fs, PlyFaceIs f.1 f.2.1) :
    ∃ t, plyFaces (fs.map fun f => (f.1, f.2.2)) = some t ∧
      (fileLines (t ++ rest)).map words = ((fs.filter (·.2.2)).map fun f => Nat.toDigits 10 f.2.1.length :: f.2.1.map (Nat.toDigits 10)) ++ (fileLines rest).map words := by
  induction fs with
  | nil => exact ⟨[], rfl, by simp⟩
  | cons f fs ih =>
    obtain ⟨t, e1, e2⟩ := ih (fun g hg => h g (by simp [hg]))
    by_cases hb : f.2.2 = true
    · obtain ⟨l, l1, l2⟩ := plyFace_line (t ++ rest) (h f (by simp))
      refine ⟨l ++ t, by simp only [List.map_cons, plyFaces, if_pos hb, l1, e1], ?_⟩
      rw [List.append_assoc, l2, e2, List.filter_cons_of_pos (by simpa using hb)]
      rfl
    · refine ⟨t, by simp only [List.map_cons, plyFaces, if_neg hb, e1], ?_⟩
      rw [e2, List.filter_cons_of_neg (by simpa using hb)]

theorem polygons_eq {num : Tok → Option Nat} (hn : ∀ n, num (Nat.toDigits 10 n) = some n) (gs : List (List Nat)) (h : ∀ cs ∈ gs, cs.length < 256 ∧ ∀ c ∈ cs, c < 2 ^ 31) :
    (gs.map fun cs => Nat.toDigits 10 cs.length :: cs.map (Nat.toDigits 10)).mapM (plyPolygon num) = some gs := by
  induction gs with
  | nil => rfl
  | cons cs gs ih =>
    obtain ⟨h1, h2⟩ := h cs (by simp)
    rw [List.map_cons, List.mapM_cons, ih (fun d hd => h d (by simp [hd]))]
    simp only [plyPolygon, hn, List.length_map]
    rw [if_pos ⟨h1, trivial⟩, ints_eq hn cs h2]
    rfl

/-- Reading the file that is written for given flags. -/
theorem plyFile_read {V : Type} {showV : V → List Char} {parse : Tok → V} {num : Tok → Option Nat} {rd : V → V} (hP : PlyPrinting showV parse num rd) (nv : Nat) (vs : List V)
    (hv : vs.length = 3 * nv) (fs : List (List Nat × List Nat × Bool)) (hf : ∀ f ∈ fs, PlyFaceIs f.1 f.2.1) :
    ∃ t, plyFile showV nv vs (fs.map fun f => (f.1, f.2.2)) = some t ∧
      readPly parse num t =
        (((fs.filter (·.2.2)).map fun f => Nat.toDigits 10 f.2.1.length :: f.2.1.map (Nat.toDigits 10)).mapM (plyPolygon num)).map fun gs => (vs.map rd, gs) := by
  obtain ⟨tf, f1, f2⟩ := plyFaces_lines [] fs hf
  obtain ⟨tv, ls, v1, v2, v3, ps, v4, v5⟩ := plyVertices_lines hP vs tf nv 0 (by omega)
  refine ⟨_, by simp only [plyFile, v1, f1]; rfl, ?_⟩
  have hlen : ((fs.map fun f => (f.1, f.2.2)).filter (·.2)).length = (fs.filter (·.2.2)).length := by
    rw [List.filter_map, List.length_map]; rfl
  rw [List.append_nil] at f2
  rw [hlen, List.append_assoc]
  simp only [readPly]
  rw [plyHeader_lines, v2, f2]
  have e0 : (fileLines ([] : List Char)).map words = [] := rfl
  rw [e0, List.append_nil]
  set F := (fs.filter (·.2.2)).map fun f => Nat.toDigits 10 f.2.1.length :: f.2.1.map (Nat.toDigits 10) with hF
  have hFl : F.length = (fs.filter (·.2.2)).length := by rw [hF, List.length_map]
  have hdecl : plyDeclared num ([["comment".toList, "VoroCrust".toList, "generated".toList], ["element".toList, "vertex".toList, Nat.toDigits 10 nv],
        ["property".toList, "float".toList, "x".toList], ["property".toList, "float".toList, "y".toList], ["property".toList, "float".toList, "z".toList],
        ["element".toList, "face".toList, Nat.toDigits 10 (fs.filter (·.2.2)).length], ["property".toList, "list".toList, "uchar".toList, "int".toList, "vertex_indices".toList],
        ["end_header".toList]] ++ (ls ++ F)) [] =
      some ([⟨"vertex".toList, nv, [["float".toList, "x".toList], ["float".toList, "y".toList], ["float".toList, "z".toList]]⟩,
        ⟨"face".toList, (fs.filter (·.2.2)).length, [["list".toList, "uchar".toList, "int".toList, "vertex_indices".toList]]⟩], ls ++ F) := by
    simp [plyDeclared, hP.index]
  simp only [List.cons_append, List.nil_append] at hdecl ⊢
  rw [if_pos ⟨trivial, trivial⟩, hdecl]
  simp only [List.length_append, v3, hFl, and_self, if_true]
  rw [List.take_left' v3, List.drop_left' v3, v4]
  cases F.mapM (plyPolygon num) with
  | none => rfl
  | some gs => simp [v5]

/-! ## The claims -/

/-- **C114.** The file written for a mesh reads back: the coordinates in their order, each as it was printed, and the corners of all faces in their order; the numbers in the header are those of the
lines that follow.  Needs at most 255 corners per face and indices of an `int`, since these are the types the header declares. -/
theorem C114_ply_round_trip {V : Type} {showV : V → List Char} {parse : Tok → V} {num : Tok → Option Nat} {rd : V → V} (hP : PlyPrinting showV parse num rd) (nv : Nat) (vs : List V)
    (hv : vs.length = 3 * nv) (faces corners : List (List Nat)) (hf : List.Forall₂ PlyFaceIs faces corners) (hc : ∀ cs ∈ corners, cs.length < 256 ∧ ∀ c ∈ cs, c < 2 ^ 31) :
    ∃ t, savePly showV nv vs faces = some t ∧ readPly parse num t = some (vs.map rd, corners) := by
  obtain ⟨t, h1, h2⟩ := plyFile_read hP nv vs hv ((faces.zip corners).map fun p => (p.1, p.2, true)) (by
    intro f h
    obtain ⟨p, hp, rfl⟩ := List.mem_map.1 h
    exact (List.forall₂_iff_zip.1 hf).2 hp)
  have hl := hf.length_eq
  have e1 : ((faces.zip corners).map fun p => (p.1, p.2, true)).map (fun f => (f.1, f.2.2)) = faces.map fun f => (f, true) := by
    rw [List.map_map]
    conv_rhs => rw [← List.map_fst_zip (l₁ := faces) (l₂ := corners) (by omega), List.map_map]
    rfl
  rw [e1] at h1
  refine ⟨t, h1, ?_⟩
  have e2 : (((faces.zip corners).map fun p => (p.1, p.2, true)).filter (·.2.2)).map (fun f => Nat.toDigits 10 f.2.1.length :: f.2.1.map (Nat.toDigits 10)) =
      corners.map fun cs => Nat.toDigits 10 cs.length :: cs.map (Nat.toDigits 10) := by
    rw [List.filter_map, List.filter_eq_self.2 (by simp), List.map_map]
    conv_rhs => rw [← List.map_snd_zip (l₁ := faces) (l₂ := corners) (by omega), List.map_map]
    rfl
  rw [h2, e2, polygons_eq hP.index corners hc]
  rfl

/-- A corner on the far side of the plane, up to the tolerance. -/
def CornerAhead (vs : List ℝ) (xo e : Nat → ℝ) (c : Nat) : Prop :=
  -1e-10 ≤ (vs.getD (3 * c) 0 - xo 0) * e 0 + (vs.getD (3 * c + 1) 0 - xo 1) * e 1 + (vs.getD (3 * c + 2) 0 - xo 2) * e 2

theorem cornersAhead_eq {vs : List ℝ} (xo e : Nat → ℝ) {nv : Nat} (hv : vs.length = 3 * nv) (cs rest : List Nat) (h : ∀ c ∈ cs, c < nv) :
    ∃ b, cornersAhead vs xo e cs.length (cs ++ rest) = some b ∧ (b = true ↔ ∀ c ∈ cs, CornerAhead vs xo e c) := by
  induction cs with
  | nil => exact ⟨true, rfl, by simp⟩
  | cons c cs ih =>
    obtain ⟨b, e1, e2⟩ := ih (fun d hd => h d (by simp [hd]))
    have hc := h c (by simp)
    have g0 : vs[c * 3]? = some (vs.getD (3 * c) 0) := by rw [show c * 3 = 3 * c by omega, List.getD_eq_getElem?_getD, List.getElem?_eq_getElem (by omega)]; rfl
    have g1 : vs[c * 3 + 1]? = some (vs.getD (3 * c + 1) 0) := by rw [show c * 3 = 3 * c by omega, List.getD_eq_getElem?_getD, List.getElem?_eq_getElem (by omega)]; rfl
    have g2 : vs[c * 3 + 2]? = some (vs.getD (3 * c + 2) 0) := by rw [show c * 3 = 3 * c by omega, List.getD_eq_getElem?_getD, List.getElem?_eq_getElem (by omega)]; rfl
    simp only [List.length_cons, List.cons_append, cornersAhead, cornerDot, g0, g1, g2, zero_add, e1]
    by_cases hd : (vs.getD (3 * c) 0 - xo 0) * e 0 + (vs.getD (3 * c + 1) 0 - xo 1) * e 1 + (vs.getD (3 * c + 2) 0 - xo 2) * e 2 < -1e-10
    · refine ⟨false, if_pos hd, by simp, fun hh => ?_⟩
      have := hh c (by simp)
      exact absurd hd (not_lt.2 this)
    · refine ⟨b, if_neg hd, ?_⟩
      rw [e2, List.forall_mem_cons]
      exact ⟨fun hh => ⟨not_lt.1 hd, hh⟩, fun hh => hh.2⟩

open Classical in
theorem facesAhead_eq {vs : List ℝ} (xo e : Nat → ℝ) {nv : Nat} (hv : vs.length = 3 * nv) {faces corners : List (List Nat)} (hf : List.Forall₂ PlyFaceIs faces corners)
    (h : ∀ cs ∈ corners, ∀ c ∈ cs, c < nv) :
    facesAhead vs xo e faces = some (((faces.zip corners).map fun p : List Nat × List Nat => (p.1, p.2, decide (∀ c ∈ p.2, CornerAhead vs xo e c))).map fun f => (f.1, f.2.2)) := by
  induction hf with
  | nil => rfl
  | @cons f cs fs css h1 _ ih =>
    obtain ⟨rest, rfl⟩ := h1
    obtain ⟨b, e1, e2⟩ := cornersAhead_eq xo e hv cs rest (h cs (by simp))
    simp only [facesAhead, e1, ih (fun d hd => h d (by simp [hd])), List.zip_cons_cons, List.map_cons]
    congr 3
    by_cases hb : ∀ c ∈ cs, CornerAhead vs xo e c
    · rw [decide_eq_true hb, e2.2 hb]
    · rw [decide_eq_false hb]
      exact Bool.eq_false_iff.2 fun hh => hb (e2.1 hh)

open Classical in
/-- **C114, on one side of a plane.** With a point and a direction the file holds exactly the faces with no corner behind the plane, in their order, and all vertices; the header counts only these faces. -/
theorem C114_ply_ahead {showV : ℝ → List Char} {parse : Tok → ℝ} {num : Tok → Option Nat} {rd : ℝ → ℝ} (hP : PlyPrinting showV parse num rd) (nv : Nat) (vs : List ℝ)
    (hv : vs.length = 3 * nv) (faces corners : List (List Nat)) (hf : List.Forall₂ PlyFaceIs faces corners) (hc : ∀ cs ∈ corners, cs.length < 256 ∧ ∀ c ∈ cs, c < nv) (hn : nv ≤ 2 ^ 31)
    (xo e : Nat → ℝ) :
    ∃ t, savePlyAhead showV nv vs faces xo e = some t ∧ readPly parse num t = some (vs.map rd, corners.filter fun cs => ∀ c ∈ cs, CornerAhead vs xo e c) := by
  obtain ⟨t, h1, h2⟩ := plyFile_read hP nv vs hv ((faces.zip corners).map fun p : List Nat × List Nat => (p.1, p.2, decide (∀ c ∈ p.2, CornerAhead vs xo e c))) (by
    intro f h
    obtain ⟨p, hp, rfl⟩ := List.mem_map.1 h
    exact (List.forall₂_iff_zip.1 hf).2 hp)
  have hl := hf.length_eq
  refine ⟨t, by rw [savePlyAhead, facesAhead_eq xo e hv hf fun cs h => (hc cs h).2]; exact h1, ?_⟩
  have e2 : (((faces.zip corners).map fun p : List Nat × List Nat => (p.1, p.2, decide (∀ c ∈ p.2, CornerAhead vs xo e c))).filter (·.2.2)).map
        (fun f => Nat.toDigits 10 f.2.1.length :: f.2.1.map (Nat.toDigits 10)) =
      (corners.filter fun cs => ∀ c ∈ cs, CornerAhead vs xo e c).map fun cs => Nat.toDigits 10 cs.length :: cs.map (Nat.toDigits 10) := by
    rw [List.filter_map, List.map_map]
    conv_rhs => rw [← List.map_snd_zip (l₁ := faces) (l₂ := corners) (by omega), List.filter_map, List.map_map]
    rfl
  rw [h2, e2, polygons_eq hP.index]
  · rfl
  · intro cs h
    have hh := hc cs (List.mem_filter.1 h).1
    exact ⟨hh.1, fun c hcs => (hh.2 c hcs).trans_le hn⟩

theorem mapM_none {α β : Type} {f : α → Option β} {l : List α} {a : α} (ha : a ∈ l) (h : f a = none) : l.mapM f = none := by
  induction l with
  | nil => simp at ha
  | cons b l ih =>
    rw [List.mapM_cons]
    rcases List.mem_cons.1 ha with rfl | ha
    · rw [h]; rfl
    · rw [ih ha]; cases f b <;> rfl

/-- **C114 fails for large faces.** A face of 256 or more corners is written although the header declares the number of corners as one byte: the file is not valid. -/
theorem C114_many_corners_false {V : Type} {showV : V → List Char} {parse : Tok → V} {num : Tok → Option Nat} {rd : V → V} (hP : PlyPrinting showV parse num rd) (nv : Nat) (vs : List V)
    (hv : vs.length = 3 * nv) (faces corners : List (List Nat)) (hf : List.Forall₂ PlyFaceIs faces corners) (cs : List Nat) (hcs : cs ∈ corners) (hlen : 256 ≤ cs.length) :
    ∃ t, savePly showV nv vs faces = some t ∧ readPly parse num t = none := by
  obtain ⟨t, h1, h2⟩ := plyFile_read hP nv vs hv ((faces.zip corners).map fun p => (p.1, p.2, true)) (by
    intro f h
    obtain ⟨p, hp, rfl⟩ := List.mem_map.1 h
    exact (List.forall₂_iff_zip.1 hf).2 hp)
  have hl := hf.length_eq
  have e1 : ((faces.zip corners).map fun p => (p.1, p.2, true)).map (fun f => (f.1, f.2.2)) = faces.map fun f => (f, true) := by
    rw [List.map_map]
    conv_rhs => rw [← List.map_fst_zip (l₁ := faces) (l₂ := corners) (by omega), List.map_map]
    rfl
  rw [e1] at h1
  refine ⟨t, h1, ?_⟩
  rw [h2, mapM_none (a := Nat.toDigits 10 cs.length :: cs.map (Nat.toDigits 10)) _ (by simp only [plyPolygon, hP.index]; rw [if_neg (by omega)])]
  · rfl
  · rw [List.filter_map, List.filter_eq_self.2 (by simp), List.map_map]
    rw [← List.map_snd_zip (l₁ := faces) (l₂ := corners) (by omega), List.mem_map] at hcs
    obtain ⟨p, hp, rfl⟩ := hcs
    exact List.mem_map.2 ⟨p, hp, rfl⟩

/-! ## A case -/

/-- There is such a printing. -/
theorem unit_ply : PlyPrinting unitShow unitParse (fun t => some (Nat.ofDigitChars 10 t 0)) (fun x => (round (x * 10 ^ 15) : ℝ) / 10 ^ 15) :=
  ⟨unit_printing.1.solid, unit_printing.1.nonempty, unit_printing.1.coord, fun n => by rw [Nat.ofDigitChars_toDigits (by norm_num) (by norm_num)]⟩

/-- A triangle and a quadrangle over five vertices; only the triangle lies above the plane `z = 0`. -/
example : ∃ t, savePlyAhead unitShow 5 [0, 0, 1, 1, 0, 1, 0, 1, 1, 0, 0, -1, 1, 1, -1] [[3, 0, 1, 2, 7, 8], [4, 0, 1, 4, 3, 7, 9]] (fun _ => 0) (fun k => if k = 2 then 1 else 0) = some t ∧
    ∃ vs, readPly unitParse (fun t => some (Nat.ofDigitChars 10 t 0)) t = some (vs, [[0, 1, 2]]) := by
  obtain ⟨t, h1, h2⟩ := C114_ply_ahead unit_ply 5 [0, 0, 1, 1, 0, 1, 0, 1, 1, 0, 0, -1, 1, 1, -1] (by simp) [[3, 0, 1, 2, 7, 8], [4, 0, 1, 4, 3, 7, 9]] [[0, 1, 2], [0, 1, 4, 3]]
    (.cons ⟨[7, 8], rfl⟩ (.cons ⟨[7, 9], rfl⟩ .nil)) (by simp) (by norm_num) (fun _ => 0) (fun k => if k = 2 then 1 else 0)
  refine ⟨t, h1, [0, 0, 1, 1, 0, 1, 0, 1, 1, 0, 0, -1, 1, 1, -1].map fun x : ℝ => (round (x * 10 ^ 15) : ℝ) / 10 ^ 15, ?_⟩
  rw [h2]
  congr 2
  rw [List.filter_cons_of_pos, List.filter_cons_of_neg, List.filter_nil]
  · simp [CornerAhead]
    norm_num
  · simp [CornerAhead]
    norm_num

end VoroCrust
