import Verif.Model.ExodusFile
import Verif.Props.Exodus

/-! # Properties C119 (the Exodus file holds the mesh) and C120 (lists handed to the Exodus writer) -/

namespace VoroCrust

/-! ## C119 -/

/-- Coordinates of points one after the other. -/
def flatXyz {V : Type} (xyz : List (V × V × V)) : List V := xyz.flatMap fun p => [p.1, p.2.1, p.2.2]

/-- The reader's faces: lists of nodes, counted from 0. -/
def ExoStored.faces {R : Type} (F : ExoStored R) : List (List Nat) := (splitCounts F.faceCount F.faceConn).map fun f => f.map fun e => (e - 1).toNat

/-- The reader's elements: lists of faces, counted from 0. -/
def ExoStored.elems {R : Type} (F : ExoStored R) : List (List Nat) := (splitCounts F.elemCount F.elemConn).map fun f => f.map fun e => (e - 1).toNat

/-- The cells inside. -/
def innerCells (cells : List (Nat × List Nat)) : List (List Nat) := (cells.filter fun c => c.1 ≠ 0).map Prod.snd

theorem flatXyz_get {V : Type} : ∀ (xyz : List (V × V × V)) (i : Nat) (p : V × V × V), xyz[i]? = some p →
    (flatXyz xyz)[i * 3]? = some p.1 ∧ (flatXyz xyz)[i * 3 + 1]? = some p.2.1 ∧ (flatXyz xyz)[i * 3 + 2]? = some p.2.2 := by
  intro xyz
  induction xyz with
  | nil => intro i p h; simp at h
  | cons q l ih =>
    intro i p h
    have e : flatXyz (q :: l) = q.1 :: q.2.1 :: q.2.2 :: flatXyz l := rfl
    rw [e]
    cases i with
    | zero => simp at h; subst h; simp
    | succ i =>
      obtain ⟨h1, h2, h3⟩ := ih i p (by simpa using h)
      refine ⟨?_, ?_, ?_⟩
      · rw [show (i + 1) * 3 = i * 3 + 1 + 1 + 1 by omega]; simpa using h1
      · rw [show (i + 1) * 3 + 1 = i * 3 + 1 + 1 + 1 + 1 by omega]; simpa using h2
      · rw [show (i + 1) * 3 + 2 = i * 3 + 2 + 1 + 1 + 1 by omega]; simpa using h3

theorem exoNodes_eq {V R : Type} (fl : V → R) (xyz : List (V × V × V)) (cap : Int) (hc : (xyz.length : Int) ≤ cap) : ∀ n i, i + n = xyz.length →
    exoNodes fl (flatXyz xyz) cap n i = some ((xyz.drop i).map fun p => (fl p.1, fl p.2.1, fl p.2.2)) := by
  intro n
  induction n with
  | zero => intro i hi; rw [exoNodes, List.drop_of_length_le (by omega)]; rfl
  | succ n ih =>
    intro i hi
    have hlt : i < xyz.length := by omega
    obtain ⟨h1, h2, h3⟩ := flatXyz_get xyz i xyz[i] (List.getElem?_eq_getElem hlt)
    rw [exoNodes, if_pos (by omega), h1, h2, h3, ih (i + 1) (by omega), List.drop_eq_getElem_cons hlt]
    rfl

theorem exoNodes_over {V R : Type} (fl : V → R) (vs : List V) (cap : Int) : ∀ n i, cap < ((i + n : Nat) : Int) → cap ≤ i ∨ 0 < n → 0 < n → exoNodes fl vs cap n i = none := by
  intro n
  induction n with
  | zero => intro i _ _ h; omega
  | succ n ih =>
    intro i h _ _
    rw [exoNodes]
    by_cases hi : (i : Int) < cap
    · rw [if_pos hi, ih (i + 1) (by omega) (Or.inr (by omega)) (by omega)]
      cases vs[i * 3]? <;> cases vs[i * 3 + 1]? <;> cases vs[i * 3 + 2]? <;> rfl
    · rw [if_neg hi]

theorem exoTotal_eq (fs : List (List Nat)) : exoTotal fs = fs.flatten.length := by
  induction fs with
  | nil => rfl
  | cons f fs ih => rw [exoTotal, ih]; simp

theorem exoCellCount_eq (cs : List (Nat × List Nat)) : exoCellCount cs = ((innerCells cs).length, (innerCells cs).flatten.length) := by
  induction cs with
  | nil => rfl
  | cons c cs ih =>
    rw [exoCellCount, ih]
    unfold innerCells
    by_cases hc : c.1 = 0
    · rw [if_pos hc, List.filter_cons_of_neg (by simp [hc])]
    · rw [if_neg hc, List.filter_cons_of_pos (by simp [hc])]
      simp [Nat.add_comm]

theorem libRead_all {α : Type} (l : List α) : libRead (l.length : Int) l = some l := by
  unfold libRead
  rw [if_neg (by omega), if_pos (by simp)]
  simp

theorem sub_one_toNat (f : List Nat) : (f.map fun v : Nat => (v : Int) + 1).map (fun e => (e - 1).toNat) = f := by
  rw [List.map_map]
  refine (List.map_congr_left fun v _ => ?_).trans (List.map_id f)
  simp

theorem exoFill_flat (fs : List (List Nat)) (h1 : fs.flatten.length ≤ intMax) (h2 : ∀ v ∈ fs.flatten, v < intMax) : ∀ f ∈ fs, f.length ≤ intMax ∧ ∀ v ∈ f, v < intMax := by
  intro f hf
  refine ⟨?_, fun v hv => h2 v (List.mem_flatten.2 ⟨f, hf, hv⟩)⟩
  have := List.Sublist.length_le (List.sublist_flatten_of_mem hf)
  omega

theorem exoHand_eq {R : Type} (nn nf ne fT eT : Int) (xyz : List (R × R × R)) (fn fe cn ce : List Int) (r1 : libRead nn xyz = some xyz) (r2 : libRead fT fe = some fe) (r3 : libRead nf fn = some fn)
    (r4 : libRead eT ce = some ce) (r5 : libRead ne cn = some cn) : exoHand nn nf ne fT eT xyz fn fe cn ce = some ⟨nn, nf, ne, 1, xyz, fe, fn, ce, cn⟩ := by
  unfold exoHand
  rw [r1, r2, r3, r4, r5]

/-- **C119.** For every mesh whose numbers fit into an `int`, the Exodus file is written without leaving the bounds of an array, and a reader of the file gets back the mesh: the points rounded to single
precision in their order, the faces in their order, and as elements the cells with a region other than 0 in their order; all numbers in the tables are valid if those of the mesh are. -/
theorem C119_read_back {V R : Type} (fl : V → R) (xyz : List (V × V × V)) (faces : List (List Nat)) (cells : List (Nat × List Nat)) (hv : xyz.length ≤ intMax) (hf : faces.length ≤ intMax)
    (hf1 : faces.flatten.length ≤ intMax) (hf2 : ∀ v ∈ faces.flatten, v < intMax) (hc : (innerCells cells).length ≤ intMax) (hc1 : (innerCells cells).flatten.length ≤ intMax)
    (hc2 : ∀ v ∈ (innerCells cells).flatten, v < intMax) :
    ∃ F, exoStore fl xyz.length (flatXyz xyz) faces cells = some F ∧ F.nodes = (xyz.map fun p => (fl p.1, fl p.2.1, fl p.2.2)) ∧ F.faces = faces ∧ F.elems = innerCells cells ∧
      F.numNodes = xyz.length ∧ F.numFaces = faces.length ∧ F.numElems = (innerCells cells).length ∧
      ((∀ v ∈ faces.flatten, v < xyz.length) → ∀ e ∈ F.faceConn, 1 ≤ e ∧ e ≤ F.numNodes) ∧ ((∀ v ∈ (innerCells cells).flatten, v < faces.length) → ∀ e ∈ F.elemConn, 1 ≤ e ∧ e ≤ F.numFaces) := by
  have e1 : exoFaces faces = some (faces.map fun f => (f.length : Int), faces.flatten.map fun v : Nat => (v : Int) + 1) := by
    have := exoFill_eq faces.length (exoTotal faces) faces [] [] (exoFill_flat faces hf1 hf2) (by simp) (by simp)
    simpa [exoFaces] using this
  have e2 : exoCells cells = some ((innerCells cells).map fun f => (f.length : Int), (innerCells cells).flatten.map fun v : Nat => (v : Int) + 1) := by
    have := exoCellFill_eq (exoCellCount cells).1 (exoCellCount cells).2 cells [] [] (fun c hcm h0 => exoFill_flat (innerCells cells) hc1 hc2 c.2 (List.mem_map.2 ⟨c, List.mem_filter.2 ⟨hcm, by simpa using h0⟩, rfl⟩))
      (by simp) (by simp)
    simpa [exoCells, innerCells] using this
  have e3 := exoNodes_eq fl xyz (castInt xyz.length) (Int.le_of_eq (castInt_eq hv).symm) xyz.length 0 (by omega)
  have r1 : libRead (castInt xyz.length) (xyz.map fun p => (fl p.1, fl p.2.1, fl p.2.2)) = some (xyz.map fun p => (fl p.1, fl p.2.1, fl p.2.2)) := by
    rw [castInt_eq hv]
    have := libRead_all (xyz.map fun p => (fl p.1, fl p.2.1, fl p.2.2))
    rwa [List.length_map] at this
  have r2 : libRead (castInt (faces.flatten.map fun v : Nat => (v : Int) + 1).length) (faces.flatten.map fun v : Nat => (v : Int) + 1) = some (faces.flatten.map fun v : Nat => (v : Int) + 1) := by
    rw [castInt_eq (by rw [List.length_map]; exact hf1)]
    exact libRead_all _
  have r3 : libRead (castInt faces.length) (faces.map fun f => (f.length : Int)) = some (faces.map fun f => (f.length : Int)) := by
    rw [castInt_eq hf]
    have := libRead_all (faces.map fun f => (f.length : Int))
    rwa [List.length_map] at this
  have r4 : libRead (castInt ((innerCells cells).flatten.map fun v : Nat => (v : Int) + 1).length) ((innerCells cells).flatten.map fun v : Nat => (v : Int) + 1) =
      some ((innerCells cells).flatten.map fun v : Nat => (v : Int) + 1) := by
    rw [castInt_eq (by rw [List.length_map]; exact hc1)]
    exact libRead_all _
  have r5 : libRead (castInt (innerCells cells).length) ((innerCells cells).map fun f => (f.length : Int)) = some ((innerCells cells).map fun f => (f.length : Int)) := by
    rw [castInt_eq hc]
    have := libRead_all ((innerCells cells).map fun f => (f.length : Int))
    rwa [List.length_map] at this
  rw [List.drop_zero] at e3
  refine ⟨⟨castInt xyz.length, castInt faces.length, castInt (innerCells cells).length, 1, xyz.map fun p => (fl p.1, fl p.2.1, fl p.2.2), faces.flatten.map fun v : Nat => (v : Int) + 1,
    faces.map fun f => (f.length : Int), (innerCells cells).flatten.map fun v : Nat => (v : Int) + 1, (innerCells cells).map fun f => (f.length : Int)⟩, ?_, rfl, ?_, ?_, ?_, ?_, ?_, ?_, ?_⟩
  · unfold exoStore
    rw [e1, e2, e3, exoCellCount_eq]
    exact exoHand_eq _ _ _ _ _ _ _ _ _ _ r1 r2 r3 r4 r5
  · unfold ExoStored.faces
    simp only
    rw [splitCounts_flatten, List.map_map]
    exact (List.map_congr_left fun f _ => sub_one_toNat f).trans (List.map_id faces)
  · unfold ExoStored.elems
    simp only
    rw [splitCounts_flatten, List.map_map]
    exact (List.map_congr_left fun f _ => sub_one_toNat f).trans (List.map_id _)
  · dsimp only; rw [castInt_eq hv]
  · dsimp only; rw [castInt_eq hf]
  · dsimp only; rw [castInt_eq hc]
  · intro h e he
    obtain ⟨v, hv', rfl⟩ := List.mem_map.1 he
    have := h v hv'
    simp only [castInt_eq hv]
    omega
  · intro h e he
    obtain ⟨v, hv', rfl⟩ := List.mem_map.1 he
    have := h v hv'
    simp only [castInt_eq hf]
    omega

/-- **C119, finding.** The regions of the cells are not in the file: with other regions for the cells inside the file is the same. -/
theorem C119_regions_lost {V R : Type} (fl : V → R) (nv : Nat) (vs : List V) (faces : List (List Nat)) (cells cells' : List (Nat × List Nat))
    (h : (cells.map fun c => (decide (c.1 = 0), c.2)) = cells'.map fun c => (decide (c.1 = 0), c.2)) : exoStore fl nv vs faces cells = exoStore fl nv vs faces cells' := by
  have h1 : ∀ cs cs' : List (Nat × List Nat), (cs.map fun c => (decide (c.1 = 0), c.2)) = (cs'.map fun c => (decide (c.1 = 0), c.2)) →
      exoCellCount cs = exoCellCount cs' ∧ ∀ capN cap ns arr, exoCellFill capN cap cs ns arr = exoCellFill capN cap cs' ns arr := by
    intro cs
    induction cs with
    | nil =>
      intro cs' h
      cases cs' with
      | nil => exact ⟨rfl, fun _ _ _ _ => rfl⟩
      | cons c cs' => simp at h
    | cons c cs ih =>
      intro cs' h
      cases cs' with
      | nil => simp at h
      | cons c' cs' =>
        simp only [List.map_cons, List.cons.injEq, Prod.mk.injEq, decide_eq_decide] at h
        obtain ⟨⟨g1, g2⟩, g3⟩ := h
        obtain ⟨k1, k2⟩ := ih cs' g3
        constructor
        · rw [exoCellCount, exoCellCount, k1, g2]
          by_cases h0 : c.1 = 0
          · rw [if_pos h0, if_pos (g1.1 h0)]
          · rw [if_neg h0, if_neg fun h => h0 (g1.2 h)]
        · intro capN cap ns arr
          rw [exoCellFill, exoCellFill, g2]
          simp only [k2]
          by_cases h0 : c.1 = 0
          · rw [if_pos h0, if_pos (g1.1 h0)]
          · rw [if_neg h0, if_neg fun h => h0 (g1.2 h)]
  obtain ⟨k1, k2⟩ := h1 cells cells' h
  unfold exoStore exoCells
  simp only [k1, k2]

/-- **C119, finding.** So no reader can find the regions. -/
theorem C119_regions_false : ¬ ∃ regions : ExoStored Nat → List Nat, ∀ xyz faces cells F, exoStore (id : Nat → Nat) (List.length xyz) (flatXyz xyz) faces cells = some F →
    regions F = (cells.filter fun c => c.1 ≠ 0).map Prod.fst := by
  rintro ⟨regions, h⟩
  have a := h [(0, 0, 0), (1, 0, 0), (0, 1, 0)] [[0, 1, 2]] [(1, [0]), (1, [0])] ⟨3, 1, 2, 1, [(0, 0, 0), (1, 0, 0), (0, 1, 0)], [1, 2, 3], [3], [1, 1], [1, 1]⟩ (by decide)
  have b := h [(0, 0, 0), (1, 0, 0), (0, 1, 0)] [[0, 1, 2]] [(1, [0]), (2, [0])] ⟨3, 1, 2, 1, [(0, 0, 0), (1, 0, 0), (0, 1, 0)], [1, 2, 3], [3], [1, 1], [1, 1]⟩ (by decide)
  rw [a] at b
  exact absurd b (by decide)

/-- **C119, finding.** With more points than the largest `int`, up to the largest `size_t`, the arrays of coordinates are too small. -/
theorem C119_many_points_undefined {V R : Type} (fl : V → R) (nv : Nat) (hv : intMax < nv) (vs : List V) (faces : List (List Nat)) (cells : List (Nat × List Nat)) : exoStore fl nv vs faces cells = none := by
  have h : castInt nv < nv := by
    unfold intMax at hv
    have h1 := Int.bmod_lt (x := (nv : Int)) (m := 4294967296) (by decide)
    have h2 : castInt nv < 2147483648 := h1
    omega
  have := exoNodes_over fl vs (castInt nv) nv 0 (by simpa using h) (Or.inr (by omega)) (by omega)
  unfold exoStore
  simp only [this]

/-- A case: a tetrahedron, with a cell of region 0 that is left out. -/
example : exoStore (id : Nat → Nat) 4 (flatXyz [(0, 0, 0), (1, 0, 0), (0, 1, 0), (0, 0, 1)]) [[0, 1, 2], [0, 1, 3], [0, 2, 3], [1, 2, 3]] [(0, [1]), (7, [0, 1, 2, 3])] =
    some ⟨4, 4, 1, 1, [(0, 0, 0), (1, 0, 0), (0, 1, 0), (0, 0, 1)], [1, 2, 3, 1, 2, 4, 1, 3, 4, 2, 3, 4], [3, 3, 3, 3], [1, 2, 3, 4], [4]⟩ := by decide

/-! ## C120 -/

theorem libRead_nat {α : Type} (n : Nat) (l : List α) : libRead (n : Int) l = if n ≤ l.length then some (l.take n) else none := by
  unfold libRead
  rw [if_neg (by omega), Int.toNat_natCast]

/-- The list is given and has fewer than `total` entries; has more. -/
def fewer (total : Nat) (l : Option (List Int)) : Prop := ∃ a, l = some a ∧ a.length < total

def more (total : Nat) (l : Option (List Int)) : Prop := ∃ a, l = some a ∧ total < a.length

theorem tooMany_iff (total : Nat) (l : Option (List Int)) : tooMany total l = true ↔ more total l := by
  cases l <;> simp [tooMany, more]

theorem connRead_cases (total : Nat) (l : Option (List Int)) (h : ¬ more total l) : (connRead total l = none ∧ fewer total l) ∨ (connRead total l = some (l.getD []) ∧ ¬ fewer total l) := by
  cases l with
  | none => right; simp [connRead, fewer]
  | some a =>
    have ha : a.length ≤ total := by
      by_contra hh
      exact h ⟨a, rfl, by omega⟩
    simp only [connRead, libRead_nat]
    by_cases hl : total ≤ a.length
    · right
      rw [if_pos hl, List.take_of_length_le ha]
      refine ⟨rfl, ?_⟩
      rintro ⟨b, hb, hb2⟩
      obtain rfl := Option.some.inj hb
      omega
    · left
      rw [if_neg hl]
      exact ⟨rfl, a, rfl, by omega⟩

/-- **C120, connectivity.** For every block and all lists: too many numbers are refused; else too few in any list are undefined behaviour; else the lists are stored as given. -/
theorem C120_connectivity_partial (p : BlockParam) (node edge face : Option (List Int)) :
    let M := more (p.entries * p.nodes) node ∨ more (p.entries * p.edges) edge ∨ more (p.entries * p.faces) face
    let L := fewer (p.entries * p.nodes) node ∨ fewer (p.entries * p.edges) edge ∨ fewer (p.entries * p.faces) face
    (M → blockConnectivity (some p) node edge face = .threw) ∧ (¬ M → L → blockConnectivity (some p) node edge face = .undefined) ∧
    (¬ M → ¬ L → blockConnectivity (some p) node edge face = .stored (node.getD [], edge.getD [], face.getD [])) := by
  intro M L
  have hM : (tooMany (p.entries * p.nodes) node || tooMany (p.entries * p.edges) edge || tooMany (p.entries * p.faces) face) = true ↔ M := by
    simp only [Bool.or_eq_true, tooMany_iff, M, or_assoc]
  unfold blockConnectivity
  dsimp only
  refine ⟨fun h => by rw [if_pos (hM.2 h)], fun h hL => ?_, fun h hL => ?_⟩
  · rw [if_neg (mt hM.1 h)]
    simp only [M, not_or] at h
    rcases connRead_cases _ node h.1 with ⟨a1, a2⟩ | ⟨a1, a2⟩
    · rw [a1]
    rcases connRead_cases _ edge h.2.1 with ⟨b1, b2⟩ | ⟨b1, b2⟩
    · rw [a1, b1]
    rcases connRead_cases _ face h.2.2 with ⟨c1, c2⟩ | ⟨c1, c2⟩
    · rw [a1, b1, c1]
    exact absurd hL (by simp only [L, not_or]; exact ⟨a2, b2, c2⟩)
  · rw [if_neg (mt hM.1 h)]
    simp only [M, not_or] at h
    simp only [L, not_or] at hL
    rcases connRead_cases _ node h.1 with ⟨a1, a2⟩ | ⟨a1, a2⟩
    · exact absurd a2 hL.1
    rcases connRead_cases _ edge h.2.1 with ⟨b1, b2⟩ | ⟨b1, b2⟩
    · exact absurd b2 hL.2.1
    rcases connRead_cases _ face h.2.2 with ⟨c1, c2⟩ | ⟨c1, c2⟩
    · exact absurd c2 hL.2.2
    rw [a1, b1, c1]

/-- **C120, maps.** A map of nodes or elements for an open file: an empty list is refused, a shorter one than there are nodes is undefined behaviour, of a longer one the first entries are stored. -/
theorem C120_maps (exoid : Int) (ho : 0 ≤ exoid) (n : Nat) (map : List Int) : (map = [] → setIdMap exoid n map = .threw) ∧ (map ≠ [] → map.length < n → setIdMap exoid n map = .undefined) ∧
    (map ≠ [] → n ≤ map.length → setIdMap exoid n map = .stored (map.take n)) := by
  unfold setIdMap
  rw [if_neg (by omega)]
  refine ⟨fun h => by rw [if_pos (by simp [h])], fun h hl => ?_, fun h hl => ?_⟩
  · rw [if_neg (by simpa using h), libRead_nat, if_neg (by omega)]
  · rw [if_neg (by simpa using h), libRead_nat, if_pos hl]

/-- **C120, node sets and closed files.** A set of nodes that is not empty is stored as given; maps are refused without an open file. -/
theorem C120_node_set (nodes : List Int) (h : nodes ≠ []) (exoid : Int) (hc : exoid < 0) (n : Nat) (map : List Int) : defineNodeSet nodes = .stored nodes ∧ setIdMap exoid n map = .threw := by
  unfold defineNodeSet setIdMap
  rw [if_neg (by simpa using h), if_pos hc, libRead_all]
  exact ⟨rfl, rfl⟩

/-- **C120, finding.** In a side set elements and sides are exchanged: what is stored is right only if the two lists are equal. -/
theorem C120_side_set_false (elems sides : List Int) (h : sides ≠ []) (hl : elems.length = sides.length) :
    defineSideSet elems sides = .stored (sides.zip elems) ∧ (defineSideSet elems sides = .stored (elems.zip sides) ↔ elems = sides) := by
  have e : defineSideSet elems sides = .stored (sides.zip elems) := by
    unfold defineSideSet libSideSet
    rw [if_neg (by simpa using h), libRead_all, ← hl, libRead_all]
  refine ⟨e, ?_⟩
  rw [e]
  constructor
  · intro hz
    have hz := WriterEnd.stored.inj hz
    have := congrArg (List.map Prod.fst) hz
    rw [List.map_fst_zip (by omega), List.map_fst_zip (by omega)] at this
    exact this.symm
  · rintro rfl; rfl

/-- **C120, finding.** With fewer elements than sides a side set is undefined behaviour. -/
theorem C120_side_set_undefined (elems sides : List Int) (hl : elems.length < sides.length) : defineSideSet elems sides = .undefined := by
  unfold defineSideSet libSideSet
  rw [if_neg (by omega), libRead_all, libRead_nat, if_neg (by omega)]

/-- **C120, title.** A title of up to 80 characters is stored; a longer one is written past the end of an array. -/
theorem C120_title (exoid : Int) (ho : 0 ≤ exoid) (title : List Char) : (title.length ≤ 80 → initTitle exoid title = .stored title) ∧ (80 < title.length → initTitle exoid title = .undefined) := by
  unfold initTitle
  rw [if_neg (by omega)]
  exact ⟨fun h => if_pos (by omega), fun h => if_neg (by omega)⟩

/-- Cases: a block of two triangles with a list that is too long, too short, and right; a side set. -/
example : blockConnectivity (some ⟨2, 3, 0, 0⟩) (some [1, 2, 3, 4, 5, 6, 7]) none none = .threw ∧ blockConnectivity (some ⟨2, 3, 0, 0⟩) (some [1, 2, 3]) none none = .undefined ∧
    blockConnectivity (some ⟨2, 3, 0, 0⟩) (some [1, 2, 3, 2, 3, 4]) none none = .stored ([1, 2, 3, 2, 3, 4], [], []) ∧ defineSideSet [5, 6] [1, 4] = .stored [(1, 5), (4, 6)] := by decide

end VoroCrust
