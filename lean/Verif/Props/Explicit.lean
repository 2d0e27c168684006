import Verif.Props.MeshGapVolume
import Verif.Props.Exodus
import Verif.Props.Text

/-!
# The run that turns seeds into the mesh files (C107)

`MeshingVoroCrust::generate_explicit_mesh` and `generate_mesh_from_seeds_file` as a whole, on top of C41, C56, C80, C103 and C105.
-/

namespace VoroCrust

open Classical

attribute [local irreducible] castInt

variable {xs ys : List SeedRec} {M : VMesh} {Q : Nat → Nat → Prop} {flt : ℝ → ℝ}

/-- The numbers of the mesh fit into `int`. -/
structure ExoFits (xs : List SeedRec) (M : VMesh) : Prop where
  seeds : xs.length ≤ intMax
  nodes : M.nv < intMax
  faces : 2 * M.nf < intMax
  corners : ((List.range M.nf).map fun k => match M.faces k with | some g => g.verts.length | none => 0).sum ≤ intMax

/-- The numbers handed to the Exodus library describe the mesh: the nodes are its vertices, rounded by `flt`, the faces list their vertices, counted from 1, and the elements are the cells inside, in the order of the seeds, with the
faces that have the cell on one side, counted from 1, each once. -/
structure ExoOf (flt : ℝ → ℝ) (ys : List SeedRec) (M : VMesh) (e : ExoFile) : Prop where
  nodes : e.numNodes = M.nv ∧ e.coords.length = M.nv
  node : ∀ v z, v < M.nv → M.vertices v = some z → e.coords[v]? = some (flt (z 0), flt (z 1), flt (z 2))
  faces : e.numFaces = M.nf ∧ e.faceCounts.length = M.nf ∧ e.faceTotal = e.faceEntries.length ∧ e.faceCounts.sum = e.faceTotal
  face : ∀ k g, k < M.nf → M.faces k = some g → (splitCounts e.faceCounts e.faceEntries)[k]? = some (g.verts.map fun v : Nat => (v : Int) + 1)
  elems : e.numElems = ys.countP SeedRec.inside ∧ e.elemCounts.length = ys.countP SeedRec.inside ∧ e.elemTotal = e.elemEntries.length ∧ e.elemCounts.sum = e.elemTotal
  elem : ∀ i t, ys[i]? = some t → t.region ≠ 0 → ∃ L : List Nat, (splitCounts e.elemCounts e.elemEntries)[placeInside ys i]? = some (L.map fun k : Nat => (k : Int) + 1) ∧ L.Pairwise (· < ·) ∧
    ∀ k, k ∈ L ↔ k < M.nf ∧ ∃ g, M.faces k = some g ∧ (g.seed = i ∨ g.nbr = i)

theorem mapM_range {α : Type} {f : Nat → Option α} {g : Nat → α} : ∀ {n : Nat}, (∀ k, k < n → f k = some (g k)) → (List.range n).mapM f = some ((List.range n).map g) := by
  intro n
  induction n with
  | zero => intro _; rfl
  | succ n ih =>
    intro h
    rw [List.range_succ, List.mapM_append, ih fun k hk => h k (by omega)]
    simp [h n (by omega)]

theorem CellMesh.facesAt (hM : CellMesh xs Q M) {k : Nat} (hk : k < M.nf) : M.face k = M.faces k := if_pos hk

/-- The faces as a list. -/
theorem CellMesh.faceList (hM : CellMesh xs Q M) : ∃ fs, M.faceList = some fs ∧ fs.length = M.nf ∧ (∀ k, k < M.nf → M.faces k = fs[k]?) ∧ (fs.map fun g => (g.seed, g.nbr)) = M.pairs := by
  have h : ∀ k, k < M.nf → M.face k = some ((M.faces k).getD ⟨[], 0, 0⟩) := fun k hk => by
    obtain ⟨g, e, -⟩ := hM.face k hk
    rw [hM.facesAt hk, e]
    rfl
  refine ⟨_, mapM_range h, by simp, fun k hk => ?_, ?_⟩
  · rw [List.getElem?_map, List.getElem?_range hk]
    have := h k hk
    rw [hM.facesAt hk] at this
    exact this
  · unfold VMesh.pairs
    rw [List.map_map]
    refine List.map_congr_left fun k hk => ?_
    obtain ⟨g, e, -⟩ := hM.face k (List.mem_range.1 hk)
    simp [e]

/-- The element of a cell is at its place among the cells inside. -/
theorem filter_place {α : Type} (p : α → Bool) : ∀ (l : List α) (i : Nat) (a : α), l[i]? = some a → p a = true → (l.filter p)[(l.take i).countP p]? = some a := by
  intro l
  induction l with
  | nil => intro i a h; simp at h
  | cons b l ih =>
    intro i a h ha
    cases i with
    | zero =>
      simp only [List.getElem?_cons_zero, Option.some.injEq] at h
      subst h
      simp [ha]
    | succ i =>
      simp only [List.getElem?_cons_succ] at h
      have := ih i a h ha
      rw [List.take_succ_cons, List.countP_cons, List.filter_cons]
      by_cases hb : p b = true
      · simp [hb, this]
      · simp [hb, this]

theorem cellList_place (cf : Nat → List Nat) (ys : List SeedRec) (i : Nat) (hi : i ≤ ys.length) : ((exoCellList ys cf).take i).countP (fun c => c.1 ≠ 0) = placeInside ys i := by
  have key : ∀ m, m ≤ ys.length → ((List.range m).map fun i => (regionAt ys i, cf i)).countP (fun c => c.1 ≠ 0) = placeInside ys m := by
    intro m
    induction m with
    | zero => intro _; simp [placeInside]
    | succ m ih =>
      intro hm
      have e : ys[m]? = some ys[m] := List.getElem?_eq_getElem (by omega)
      rw [List.range_succ, List.map_append, List.countP_append, ih (by omega), placeInside_succ e]
      have : regionAt ys m = ys[m].region := by unfold regionAt; rw [e]
      simp only [List.map_cons, List.map_nil, List.countP_cons, List.countP_nil, this]
      by_cases h0 : ys[m].region = 0 <;> simp [h0]
  unfold exoCellList
  rw [← List.map_take, List.take_range, min_eq_left hi]
  exact key i hi

theorem filter_count {α : Type} (q : α → Bool) (ps : List α) : ((List.range ps.length).filter fun j => (ps[j]?).any q).length = ps.countP q := by
  induction ps using List.reverseRecOn with
  | nil => simp
  | append_singleton ps p ih =>
    rw [List.length_append, List.length_singleton, List.range_succ, List.filter_append, List.length_append, List.countP_append, ← ih]
    congr 1
    · congr 1
      refine List.filter_congr fun j hj => ?_
      rw [List.getElem?_append_left (List.mem_range.1 hj)]
    · simp only [List.filter_cons, List.filter_nil, List.getElem?_append_right (le_refl _), Nat.sub_self, List.getElem?_cons_zero, Option.any_some, List.countP_cons, List.countP_nil]
      split_ifs <;> simp

theorem sum_hits (n m : Nat) : ((List.range n).map fun i => if m = i then 1 else 0).sum = if m < n then 1 else 0 := by
  induction n with
  | zero => rfl
  | succ n ih =>
    rw [List.range_succ, List.map_append, List.sum_append, ih]
    simp only [List.map_cons, List.map_nil, List.sum_cons, List.sum_nil]
    split_ifs <;> omega

theorem sum_counts {α : Type} (f : α → Nat) (n : Nat) (ps : List α) : ((List.range n).map fun i => ps.countP fun p => f p == i).sum ≤ ps.length := by
  induction ps with
  | nil => simp
  | cons p ps ih =>
    have : (fun i => (p :: ps).countP fun p => f p == i) = fun i => (ps.countP fun p => f p == i) + if f p = i then 1 else 0 := by
      funext i
      rw [List.countP_cons]
      simp
    rw [this, List.sum_map_add, sum_hits, List.length_cons]
    split_ifs <;> omega

/-- The lists of the cells have at most two entries for a face. -/
theorem two_sides (n : Nat) (r : Nat → Bool) (ps : List (Nat × Nat)) :
    (((List.range n).filter r).map fun i => ((List.range ps.length).filter fun j => (ps[j]?).any fun p => p.1 == i || p.2 == i).length).sum ≤ 2 * ps.length := by
  have h1 : ∀ i, ((List.range ps.length).filter fun j => (ps[j]?).any fun p => p.1 == i || p.2 == i).length ≤ ps.countP (fun p => p.1 == i) + ps.countP (fun p => p.2 == i) := by
    intro i
    rw [filter_count (fun p => p.1 == i || p.2 == i) ps]
    induction ps with
    | nil => simp
    | cons p ps ih =>
      simp only [List.countP_cons]
      by_cases h1 : p.1 == i <;> by_cases h2 : p.2 == i <;> simp [h1, h2] <;> omega
  calc _ ≤ ((List.range n).map fun i => ((List.range ps.length).filter fun j => (ps[j]?).any fun p => p.1 == i || p.2 == i).length).sum :=
        (List.filter_sublist.map _).sum_le_sum (by simp)
    _ ≤ ((List.range n).map fun i => ps.countP (fun p => p.1 == i) + ps.countP (fun p => p.2 == i)).sum := List.sum_le_sum fun i _ => h1 i
    _ ≤ _ := by
      rw [List.sum_map_add]
      have := sum_counts (fun p : Nat × Nat => p.1) n ps
      have := sum_counts (fun p : Nat × Nat => p.2) n ps
      omega

/-- What the pairs of the mesh are. -/
theorem CellMesh.pairs_spec (hM : CellMesh xs Q M) : M.pairs.length = M.nf ∧ ∀ p ∈ M.pairs, p.1 < xs.length ∧ p.2 < xs.length ∧ p.1 ≠ p.2 := by
  refine ⟨by simp [VMesh.pairs], fun p hp => ?_⟩
  unfold VMesh.pairs at hp
  obtain ⟨k, hk, rfl⟩ := List.mem_map.1 hp
  obtain ⟨g, e, hg, -⟩ := hM.face k (List.mem_range.1 hk)
  rw [e]
  exact ⟨hg.seed.lt, hg.nbr, hg.ne.symm⟩

theorem CellMesh.pair_at (hM : CellMesh xs Q M) (i k : Nat) : (k < M.nf ∧ (M.pairs[k]?).any (fun p => p.1 == i || p.2 == i) = true) ↔ k < M.nf ∧ ∃ g, M.faces k = some g ∧ (g.seed = i ∨ g.nbr = i) := by
  refine and_congr_right fun hk => ?_
  obtain ⟨g, e, -⟩ := hM.face k hk
  have : M.pairs[k]? = some (g.seed, g.nbr) := by
    unfold VMesh.pairs
    rw [List.getElem?_map, List.getElem?_range hk]
    simp [e]
  rw [this, e]
  simp

theorem saveExodus_eq {cf : Nat → List Nat} {xyz : List (ℝ × ℝ × ℝ)} {fs : List MeshFace} {f c : List Int × List Int} (h1 : exoCoords flt M = some xyz) (h2 : M.faceList = some fs) (h3 : exoFaces (fs.map MeshFace.verts) = some f)
    (h4 : exoCells (exoCellList ys cf) = some c) :
    saveExodus flt ys M cf = some ⟨castInt M.nv, castInt M.nf, castInt c.1.length, xyz, castInt f.2.length, f.1, f.2, castInt c.2.length, c.1, c.2⟩ := by
  unfold saveExodus
  rw [h1, h2, h4, Option.bind_some, h3]
  rfl

/-- The Exodus file of a mesh. -/
theorem exo_of_mesh (flt : ℝ → ℝ) (hxy : ys.length = xs.length) (hM : CellMesh xs Q M) (hfit : ExoFits xs M) {cf : Nat → Option CellList} {k : Nat → Nat} {m : Nat} (hcf : cellFaces ys.length (regionAt ys) M.pairs = some (cf, k, m)) :
    ∃ e, saveExodus flt ys M (listOf cf k) = some e ∧ ExoOf flt ys M e := by
  obtain ⟨hpl, hmem⟩ := hM.pairs_spec
  obtain ⟨cf', k', m', ecf, hl, -, -⟩ := C56_cell_faces_transpose ys.length (regionAt ys) M.pairs (fun p hp => by rw [hxy]; exact ⟨(hmem p hp).1, (hmem p hp).2.1⟩) (fun p hp => (hmem p hp).2.2)
  rw [hcf] at ecf
  obtain ⟨rfl, rfl, rfl⟩ : cf = cf' ∧ k = k' ∧ m = m' := by simpa using ecf
  have hlist : ∀ i, i < ys.length → regionAt ys i ≠ 0 → listOf cf k i = (List.range M.nf).filter fun j => (M.pairs[j]?).any fun p => p.1 == i || p.2 == i := by
    intro i hi hr
    obtain ⟨l, el, -, h1⟩ := hl i hi hr
    unfold listOf
    rw [el, ← hpl]
    exact h1
  obtain ⟨fs, efs, hlen, hat, -⟩ := hM.faceList
  -- nodes
  have hc : exoCoords flt M = some ((List.range M.nv).map fun v => let z := (M.vertices v).getD fun _ => 0; (flt (z 0), flt (z 1), flt (z 2))) := by
    unfold exoCoords
    rw [if_pos (by rw [castInt_eq hfit.nodes.le])]
    refine mapM_range fun v hv => ?_
    obtain ⟨u, hu, -⟩ := hM.vertex v hv
    unfold VMesh.vertex
    rw [if_pos hv, hu]
    rfl
  -- faces
  have hfs : ∀ f ∈ fs.map MeshFace.verts, f.length ≤ intMax ∧ ∀ v ∈ f, v < intMax := by
    intro f hf
    obtain ⟨g, hg, rfl⟩ := List.mem_map.1 hf
    obtain ⟨j, hj⟩ := List.mem_iff_getElem?.1 hg
    have hjn : j < M.nf := by rw [← hlen]; exact (List.getElem?_eq_some_iff.1 hj).1
    obtain ⟨g', e, hg', -⟩ := hM.face j hjn
    rw [hat j hjn, hj] at e
    obtain rfl := Option.some.inj e
    refine ⟨?_, fun v hv => lt_trans (hg'.verts v hv) hfit.nodes⟩
    have : g.verts.length ≤ M.nv := by
      have := (List.subperm_of_subset hg'.nodup (l₂ := List.range M.nv) fun v hv => List.mem_range.2 (hg'.verts v hv)).length_le
      simpa using this
    have := hfit.nodes
    omega
  have hef := exoFill_eq (fs.map MeshFace.verts).length (exoTotal (fs.map MeshFace.verts)) (fs.map MeshFace.verts) [] [] hfs (by simp) (by simp)
  rw [List.nil_append, List.nil_append] at hef
  have hef' : exoFaces (fs.map MeshFace.verts) = _ := hef
  -- cells
  have hcs : ∀ c ∈ exoCellList ys (listOf cf k), c.1 ≠ 0 → c.2.length ≤ intMax ∧ ∀ v ∈ c.2, v < intMax := by
    intro c hc h0
    obtain ⟨i, hi, rfl⟩ := List.mem_map.1 hc
    have hi := List.mem_range.1 hi
    simp only at h0 ⊢
    rw [hlist i hi h0]
    have hf := hfit.faces
    refine ⟨?_, fun v hv => ?_⟩
    · have := (List.filter_sublist (p := fun j => (M.pairs[j]?).any fun p => p.1 == i || p.2 == i) (l := List.range M.nf)).length_le
      rw [List.length_range] at this
      omega
    · have := List.mem_range.1 (List.mem_filter.1 hv).1
      omega
  have hec := exoCellFill_eq (exoCellCount (exoCellList ys (listOf cf k))).1 (exoCellCount (exoCellList ys (listOf cf k))).2 (exoCellList ys (listOf cf k)) [] [] hcs (by simp) (by simp)
  rw [List.nil_append, List.nil_append] at hec
  have hec' : exoCells (exoCellList ys (listOf cf k)) = _ := hec
  -- sizes
  have htot : ((fs.map MeshFace.verts).flatten.map fun v : Nat => (v : Int) + 1).length ≤ intMax := by
    rw [List.length_map, List.length_flatten, List.map_map]
    refine le_trans (le_of_eq ?_) hfit.corners
    refine congrArg List.sum ?_
    refine List.ext_getElem? fun j => ?_
    by_cases hj : j < M.nf
    · rw [List.getElem?_map, List.getElem?_map, List.getElem?_range hj, ← hat j hj]
      obtain ⟨g, e, -⟩ := hM.face j hj
      simp [e]
    · rw [List.getElem?_eq_none (by simp; omega), List.getElem?_eq_none (by simp; omega)]
  have hcount : ((exoCellList ys (listOf cf k)).filter fun c => c.1 ≠ 0).length = ys.countP SeedRec.inside := by
    rw [← List.countP_eq_length_filter]
    have := cellList_place (listOf cf k) ys ys.length (le_refl _)
    rw [List.take_of_length_le (by simp [exoCellList])] at this
    rw [this]
    unfold placeInside
    rw [List.take_length]
  have hctot : ((((exoCellList ys (listOf cf k)).filter fun c => c.1 ≠ 0).map Prod.snd).flatten.map fun v : Nat => (v : Int) + 1).length ≤ intMax := by
    rw [List.length_map, List.length_flatten, List.map_map]
    unfold exoCellList
    rw [List.filter_map, List.map_map]
    have := two_sides ys.length (fun i => decide (regionAt ys i ≠ 0)) M.pairs
    rw [hpl] at this
    refine le_trans (le_trans (le_of_eq ?_) this) hfit.faces.le
    refine congrArg List.sum ?_
    refine List.map_congr_left fun i hi => ?_
    obtain ⟨h1, h2⟩ := List.mem_filter.1 hi
    show (listOf cf k i).length = _
    rw [hlist i (List.mem_range.1 h1) (by simpa using h2)]
  have hcells : ys.countP SeedRec.inside ≤ intMax := by
    have := List.countP_le_length (p := SeedRec.inside) (l := ys)
    rw [hxy] at this
    exact le_trans this hfit.seeds
  have hnf : M.nf ≤ intMax := by have := hfit.faces; omega
  have cv : castInt M.nv = M.nv := castInt_eq hfit.nodes.le
  have cn : castInt M.nf = M.nf := castInt_eq hnf
  have ct := castInt_eq htot
  have cc := castInt_eq hctot
  refine ⟨_, saveExodus_eq hc efs hef' hec', ?_, fun v z hv hz => ?_, ?_, fun j g hj hg => ?_, ?_, fun i t ht hr => ?_⟩
  · exact ⟨cv, by simp⟩
  · show (List.map _ (List.range M.nv))[v]? = _
    rw [List.getElem?_map, List.getElem?_range hv]
    simp [hz]
  · refine ⟨cn, by simp [hlen], ct, ?_⟩
    show List.sum _ = castInt _
    rw [ct]
    exact splitCounts_length _
  · show (splitCounts _ _)[j]? = _
    rw [splitCounts_flatten, List.getElem?_map, List.getElem?_map, ← hat j hj, hg]
    rfl
  · refine ⟨?_, ?_, cc, ?_⟩
    · show castInt _ = _
      rw [List.length_map, List.length_map, hcount, castInt_eq hcells]
    · show List.length _ = _
      rw [List.length_map, List.length_map, hcount]
    · show List.sum _ = castInt _
      rw [cc]
      exact splitCounts_length _
  · have hi := (List.getElem?_eq_some_iff.1 ht).1
    have hreg : regionAt ys i ≠ 0 := by unfold regionAt; rw [ht]; exact hr
    refine ⟨listOf cf k i, ?_, ?_, fun j => ?_⟩
    · have := filter_place (fun c : Nat × List Nat => decide (c.1 ≠ 0)) (exoCellList ys (listOf cf k)) i (regionAt ys i, listOf cf k i) (by unfold exoCellList; rw [List.getElem?_map, List.getElem?_range hi]; rfl) (by simpa using hreg)
      rw [cellList_place _ _ _ hi.le] at this
      show (splitCounts _ _)[_]? = _
      rw [splitCounts_flatten, List.getElem?_map, List.getElem?_map, this]
      rfl
    · rw [hlist i hi hreg]
      exact List.Pairwise.filter _ List.pairwise_lt_range
    · rw [hlist i hi hreg, List.mem_filter, List.mem_range]
      exact hM.pair_at i j

/-! ## C107 -/

/-- What the run leaves behind. -/
structure ExplicitOK (flt : ℝ → ℝ) (v e : Bool) (ns : Nat) (Q : Nat → Nat → Prop) (xs : List SeedRec) (R : ExplicitRun) : Prop where
  /-- places, sizes and ghosts are those of the input; a region number is replaced by a smaller one that is linked to it -/
  seeds : R.seeds.length = xs.length ∧ ∀ (i : Nat) (s t : SeedRec), xs[i]? = some s → R.seeds[i]? = some t →
    t.x = s.x ∧ t.size = s.size ∧ t.region ≤ s.region ∧ (t.region = 0 ↔ s.region = 0) ∧ Linked ns (regionAt xs) R.mesh.pairs s.region t.region
  /-- seeds of one region stay in one region; regions that become one are linked by cells of interior seeds with a common face -/
  regions : ∀ (i j : Nat) (s s' t t' : SeedRec), xs[i]? = some s → xs[j]? = some s' → R.seeds[i]? = some t → R.seeds[j]? = some t' →
    (s.region = s'.region → t.region = t'.region) ∧ (t.region = t'.region → Linked ns (regionAt xs) R.mesh.pairs s.region s'.region)
  /-- the number of cells -/
  cells : R.cells = ((Finset.range xs.length).filter fun i => InnerSeed xs i).card
  /-- the files -/
  vcg : if v then ∃ file, R.vcg = some file ∧ VcgCells Q xs R.seeds file else R.vcg = none
  exo : if e then ∃ file, R.exo = some file ∧ ExoOf flt R.seeds R.mesh file else R.exo = none

/-- A contact of interior seeds never involves a ghost. -/
theorem linked_zero {ns : Nat} {fs : List (Nat × Nat)} (hfs : ∀ p ∈ fs, p.1 < xs.length ∧ p.2 < xs.length) (hint : ∀ (i : Nat) (s : SeedRec), ns ≤ i → xs[i]? = some s → s.region ≠ 0) {r q : Nat} (h : Linked ns (regionAt xs) fs r q) : r = 0 ↔ q = 0 := by
  have hne : ∀ i, ns ≤ i → i < xs.length → regionAt xs i ≠ 0 := fun i h1 h2 => by
    have e : xs[i]? = some xs[i] := List.getElem?_eq_getElem h2
    unfold regionAt
    rw [e]
    exact hint i _ h1 e
  induction h with
  | rel r q h =>
    obtain ⟨p, hp, h1, h2, ⟨rfl, rfl⟩ | ⟨rfl, rfl⟩⟩ := h
    · exact iff_of_false (hne _ h1 (hfs p hp).1) (hne _ h2 (hfs p hp).2)
    · exact iff_of_false (hne _ h2 (hfs p hp).2) (hne _ h1 (hfs p hp).1)
  | refl => rfl
  | symm _ _ _ ih => exact ih.symm
  | trans _ _ _ _ _ h1 h2 => exact h1.trans h2

/-- From a mesh of seeds with bounded cells to the files. -/
theorem explicit_of_mesh (flt : ℝ → ℝ) (v e : Bool) {ns : Nat} (hint : ∀ (i : Nat) (s : SeedRec), ns ≤ i → xs[i]? = some s → s.region ≠ 0) (h : DistinctSeeds xs)
    (hB : ∀ i, InnerSeed xs i → ∃ B : ℝ, ∀ z, InVoronoi xs i z → euclid 3 z (seedPos xs i) ≤ B) (hin : ∃ i, InnerSeed xs i) (hM : CellMesh xs Q M) (hfit : e = true → ExoFits xs M) {fuel' fuel : Nat}
    (hv : voroMesh xs fuel' fuel = some (some M)) : ∃ R, explicitMesh flt v e ns xs fuel' fuel = some (some R) ∧ R.mesh = M ∧ ExplicitOK flt v e ns Q xs R := by
  obtain ⟨hpl, hmem⟩ := hM.pairs_spec
  have hmem' : ∀ p ∈ M.pairs, p.1 < xs.length ∧ p.2 < xs.length := fun p hp => ⟨(hmem p hp).1, (hmem p hp).2.1⟩
  obtain ⟨fs, efs, -, -, efp⟩ := hM.faceList
  obtain ⟨reg, active, er, r1, r2, r3, r4, r5, -⟩ := C41_merge_partial xs.length ns (regionAt xs) M.pairs hmem'
  have hget : ∀ (i : Nat) (s : SeedRec), xs[i]? = some s → (setRegions reg xs)[i]? = some ⟨s.x, s.size, reg i⟩ := fun i s hs => by
    unfold setRegions
    rw [List.getElem?_mapIdx, hs]
    rfl
  have hlt : ∀ {i : Nat} {s : SeedRec}, xs[i]? = some s → i < xs.length := fun hs => (List.getElem?_eq_some_iff.1 hs).1
  have hreg : ∀ i s, xs[i]? = some s → regionAt xs i = s.region := fun i s hs => by unfold regionAt; rw [hs]
  have hzero : ∀ i s, xs[i]? = some s → (reg i = 0 ↔ s.region = 0) := fun i s hs => by
    have := linked_zero hmem' hint (r2 i (hlt hs))
    rw [hreg i s hs] at this
    exact this.symm
  have hlen : (setRegions reg xs).length = xs.length := by simp [setRegions]
  have hxy : SameSeeds xs (setRegions reg xs) := ⟨hlen, fun i s t hs ht => by
    rw [hget i s hs] at ht
    obtain rfl := Option.some.inj ht
    exact ⟨rfl, hzero i s hs⟩⟩
  obtain ⟨cf, k, m, file, q1, q2, q3⟩ := vcg_of_mesh hxy h hB hin hM
  obtain ⟨cf', k', m', ecf, -, -, hm⟩ := C56_cell_faces_transpose (setRegions reg xs).length (regionAt (setRegions reg xs)) M.pairs (fun p hp => by rw [hlen]; exact hmem' p hp) (fun p hp => (hmem p hp).2.2)
  rw [q1] at ecf
  obtain ⟨rfl, rfl, rfl⟩ : cf = cf' ∧ k = k' ∧ m = m' := by simpa using ecf
  obtain ⟨b, eb, hb⟩ : ∃ b, (if e then (saveExodus flt (setRegions reg xs) M (listOf cf k)).map some else some none) = some b ∧ if e then ∃ file, b = some file ∧ ExoOf flt (setRegions reg xs) M file else b = none := by
    cases e
    · exact ⟨none, rfl, rfl⟩
    · obtain ⟨x, ex, hx⟩ := exo_of_mesh flt hlen hM (hfit rfl) q1
      exact ⟨some x, by simp [ex], x, rfl, hx⟩
  obtain ⟨a, ea, ha⟩ : ∃ a, (if v then (saveVcg (setRegions reg xs) M (listOf cf k)).map some else some none) = some a ∧ if v then ∃ file, a = some file ∧ VcgCells Q xs (setRegions reg xs) file else a = none := by
    cases v
    · exact ⟨none, rfl, rfl⟩
    · exact ⟨some file, by simp [q2], file, rfl, q3⟩
  refine ⟨⟨M, setRegions reg xs, active, m, a, b⟩, ?_, rfl, ⟨hlen, fun i s t hs ht => ?_⟩, fun i j s s' t t' hs hs' ht ht' => ?_, ?_, ha, hb⟩
  · unfold explicitMesh
    rw [hv]
    simp only [andThen, efs, efp, er, q1, ea, eb]
  · rw [hget i s hs] at ht
    obtain rfl := Option.some.inj ht
    have h3 := r3 i (hlt hs)
    have h2 := r2 i (hlt hs)
    rw [hreg i s hs] at h3 h2
    exact ⟨rfl, rfl, h3, hzero i s hs, h2⟩
  · rw [hget i s hs] at ht
    rw [hget j s' hs'] at ht'
    obtain rfl := Option.some.inj ht
    obtain rfl := Option.some.inj ht'
    rw [← hreg i s hs, ← hreg j s' hs']
    exact ⟨r5 i j (hlt hs) (hlt hs'), r1 i j (hlt hs) (hlt hs')⟩
  · show m = _
    rw [hm, hlen]
    congr 1
    refine Finset.filter_congr fun i hi => ?_
    have e : xs[i]? = some (xs[i]'(Finset.mem_range.1 hi)) := List.getElem?_eq_getElem _
    have e2 : regionAt (setRegions reg xs) i = reg i := by unfold regionAt; rw [hget i _ e]
    rw [e2, ne_eq, hzero i _ e]
    exact ⟨fun h => ⟨_, e, h⟩, fun ⟨s, hs, hr⟩ => by rw [e] at hs; obtain rfl := Option.some.inj hs; exact hr⟩

/-- **C107**: for seeds that meet the conditions of C105, of which those after the surface seeds have a region, the run from the seeds to the files ends without undefined behaviour.  The mesh is the Voronoi diagram of the seeds; region numbers
may be merged, but no seed gets into or out of the domain; the file for PFLOTRAN, if asked for, has the true volumes and areas; and the Exodus file, if asked for and if the numbers fit into `int`, has the vertices, faces and cells of the mesh. -/
theorem C107_explicit_mesh (flt : ℝ → ℝ) (v e : Bool) (ns : Nat) (xs : List SeedRec) (hint : ∀ (i : Nat) (s : SeedRec), ns ≤ i → xs[i]? = some s → s.region ≠ 0) (hsize : ∀ s ∈ xs, 0 ≤ s.size)
    (hsep : ∀ i j, i < xs.length → j < xs.length → i ≠ j → 2e-5 ≤ euclid 3 (seedPos xs i) (seedPos xs j)) (hvc : VertexGap xs) (hfew : FewNearest xs) (hin : ∃ i, InnerSeed xs i)
    (hcell : ∀ i s, xs[i]? = some s → s.region ≠ 0 → 1e-11 ≤ 2 * s.size ∧ ∃ M, (∀ m, m ≤ M → GapPos (seedPos xs) xs.length (seedPos xs i) (10 * (2 * s.size * 2 ^ (m + 1))) ∧ SearchClear xs i (2 * s.size * 2 ^ (m + 1))) ∧
      ∀ z, InVoronoi xs i z → 2 * euclid 3 z (seedPos xs i) < 2 * s.size * 2 ^ (M + 1)) :
    ∃ F, ∀ fuel' fuel, F ≤ fuel' → F ≤ fuel → ∃ mesh, voroMesh xs fuel' fuel = some (some mesh) ∧ IsDiagramMesh xs mesh ∧
      ((e = true → ExoFits xs mesh) → ∃ R, explicitMesh flt v e ns xs fuel' fuel = some (some R) ∧ R.mesh = mesh ∧ ExplicitOK flt v e ns (FlatFace xs) xs R) := by
  have hne : xs ≠ [] := by
    rintro rfl
    obtain ⟨i, s, hs, -⟩ := hin
    simp at hs
  obtain ⟨F, hF⟩ := C105_gap xs hne hsize hsep hvc hfew hcell
  refine ⟨F, fun fuel' fuel h1 h2 => ?_⟩
  obtain ⟨mesh, e1, e2⟩ := hF fuel' fuel h1 h2
  have hd : DistinctSeeds xs := ⟨fun i j hi hj hij => lt_of_lt_of_le (by norm_num) (hsep i j hi hj hij)⟩
  refine ⟨mesh, e1, e2, fun hfit => explicit_of_mesh flt v e hint hd (fun i ⟨s, hs, hr⟩ => ?_) hin (e2.cellMesh hd) hfit e1⟩
  obtain ⟨-, M, -, hb⟩ := hcell i s hs hr
  exact ⟨2 * s.size * 2 ^ (M + 1) / 2, fun z hz => by linarith [hb z hz]⟩

/-- **C107** for seeds with integer coordinates. -/
theorem C107_grid (flt : ℝ → ℝ) (v e : Bool) (ns : Nat) (xs : List SeedRec) (hint : ∀ (i : Nat) (s : SeedRec), ns ≤ i → xs[i]? = some s → s.region ≠ 0) (hsize : ∀ s ∈ xs, 0 ≤ s.size)
    (hgrid : ∀ i, i < xs.length → OnGrid (seedPos xs) xs.length (seedPos xs i)) (hs : SeedsApart (seedPos xs) xs.length) (hfew : FewNearest xs) (hin : ∃ i, InnerSeed xs i)
    (hcell : ∀ i s, xs[i]? = some s → s.region ≠ 0 → (∃ r : Nat, 2 * s.size = (r : ℝ)) ∧ s.size ≤ 250 ∧ ∀ z, InVoronoi xs i z → euclid 3 z (seedPos xs i) < 2 * s.size) :
    ∃ F, ∀ fuel' fuel, F ≤ fuel' → F ≤ fuel → ∃ mesh, voroMesh xs fuel' fuel = some (some mesh) ∧ IsDiagramMesh xs mesh ∧
      ((e = true → ExoFits xs mesh) → ∃ R, explicitMesh flt v e ns xs fuel' fuel = some (some R) ∧ R.mesh = mesh ∧ ExplicitOK flt v e ns (FlatFace xs) xs R) := by
  obtain ⟨h1, h2, h3⟩ := grid_conditions hgrid hs hcell
  exact C107_explicit_mesh flt v e ns xs hint hsize h1 h2 hfew hin h3

/-- Without interior seeds no regions are linked. -/
theorem linked_none {n : Nat} {fs : List (Nat × Nat)} {reg : Nat → Nat} (hfs : ∀ p ∈ fs, p.1 < n ∧ p.2 < n) {r q : Nat} (h : Linked n reg fs r q) : r = q := by
  induction h with
  | rel r q h =>
    obtain ⟨p, hp, h1, -, -⟩ := h
    have := (hfs p hp).1
    omega
  | refl => rfl
  | symm _ _ _ ih => exact ih.symm
  | trans _ _ _ _ _ h1 h2 => exact h1.trans h2

/-- If all seeds are surface seeds the regions stay. -/
theorem ExplicitOK.same {v e : Bool} {P : Nat → Nat → Prop} {R : ExplicitRun} (h : ExplicitOK flt v e xs.length Q xs R) (hM : CellMesh xs P R.mesh) : R.seeds = xs := by
  have hp := hM.pairs_spec.2
  refine List.ext_getElem? fun i => ?_
  rcases lt_or_ge i xs.length with hi | hi
  · obtain ⟨s, a1⟩ : ∃ s, xs[i]? = some s := ⟨_, List.getElem?_eq_getElem hi⟩
    obtain ⟨t, a2⟩ : ∃ t, R.seeds[i]? = some t := ⟨_, List.getElem?_eq_getElem (by rw [h.seeds.1]; exact hi)⟩
    obtain ⟨b1, b2, -, -, b5⟩ := h.seeds.2 i s t a1 a2
    have b3 := linked_none (fun p h => ⟨(hp p h).1, (hp p h).2.1⟩) b5
    rw [a1, a2]
    cases s
    cases t
    simp_all
  · rw [List.getElem?_eq_none hi, List.getElem?_eq_none (by rw [h.seeds.1]; exact hi)]

theorem seedOnLine_unique {parse : Tok → ℝ} {parseNat : Tok → Nat} {ls : List (List Char)} {l : List (Seed ℝ)} (h : List.Forall₂ (seedOnLine parse parseNat) ls l) : ∀ {l' : List (Seed ℝ)}, List.Forall₂ (seedOnLine parse parseNat) ls l' → l = l' := by
  induction h with
  | nil => intro l' h; cases h; rfl
  | cons h1 _ ih =>
    intro l' h
    cases h with
    | cons h2 h3 =>
      rw [ih h3]
      obtain ⟨t0, t1, t2, t3, t4, a0, a1, a2, a3, a4, rfl⟩ := h1
      obtain ⟨s0, s1, s2, s3, s4, b0, b1, b2, b3, b4, rfl⟩ := h2
      rw [a0] at b0; rw [a1] at b1; rw [a2] at b2; rw [a3] at b3; rw [a4] at b4
      obtain rfl := Option.some.inj b0
      obtain rfl := Option.some.inj b1
      obtain rfl := Option.some.inj b2
      obtain rfl := Option.some.inj b3
      obtain rfl := Option.some.inj b4
      rfl

/-- **C107** for a file of seeds: if every line after the first has four commas and the seeds of the file meet the conditions of C105, reading the file and meshing end without undefined behaviour, the seeds and their regions are those
of the file, and the files written are right. -/
theorem C107_seeds_file (parse : Tok → ℝ) (parseNat : Tok → Nat) (flt : ℝ → ℝ) (v e : Bool) (file : List Char) (l : List (Seed ℝ)) (hline : ∀ t ∈ (fileLines file).tail, 4 ≤ t.count ',')
    (hl : List.Forall₂ (seedOnLine parse parseNat) (fileLines file).tail l) (xs : List SeedRec) (hxs : xs = l.map recOfSeed) (hsize : ∀ s ∈ xs, 0 ≤ s.size)
    (hsep : ∀ i j, i < xs.length → j < xs.length → i ≠ j → 2e-5 ≤ euclid 3 (seedPos xs i) (seedPos xs j)) (hvc : VertexGap xs) (hfew : FewNearest xs) (hin : ∃ i, InnerSeed xs i)
    (hcell : ∀ i s, xs[i]? = some s → s.region ≠ 0 → 1e-11 ≤ 2 * s.size ∧ ∃ M, (∀ m, m ≤ M → GapPos (seedPos xs) xs.length (seedPos xs i) (10 * (2 * s.size * 2 ^ (m + 1))) ∧ SearchClear xs i (2 * s.size * 2 ^ (m + 1))) ∧
      ∀ z, InVoronoi xs i z → 2 * euclid 3 z (seedPos xs i) < 2 * s.size * 2 ^ (M + 1)) :
    ∃ F, ∀ fuel' fuel, F ≤ fuel' → F ≤ fuel → ∃ mesh, voroMesh xs fuel' fuel = some (some mesh) ∧ IsDiagramMesh xs mesh ∧
      ((e = true → ExoFits xs mesh) → ∃ R, meshFromSeedsFile parse parseNat flt v e file fuel' fuel = some (some R) ∧ R.mesh = mesh ∧ R.seeds = xs ∧ ExplicitOK flt v e xs.length (FlatFace xs) xs R) := by
  have hll : l.length = xs.length := by rw [hxs, List.length_map]
  obtain ⟨F, hF⟩ := C107_explicit_mesh flt v e xs.length xs (fun i s h1 h2 => absurd (List.getElem?_eq_some_iff.1 h2).1 (by omega)) hsize hsep hvc hfew hin hcell
  refine ⟨F, fun fuel' fuel h1 h2 => ?_⟩
  obtain ⟨mesh, e1, e2, e3⟩ := hF fuel' fuel h1 h2
  refine ⟨mesh, e1, e2, fun hfit => ?_⟩
  obtain ⟨R, f1, f2, f3⟩ := e3 hfit
  obtain ⟨l', g1, g2⟩ := (C16_seed_file parse parseNat file).1 hline
  obtain rfl : l' = l := seedOnLine_unique g2 hl
  refine ⟨R, ?_, f2, ?_, f3⟩
  · unfold meshFromSeedsFile
    rw [g1]
    simp only []
    rw [hll, ← hxs]
    exact f1
  · have hd : DistinctSeeds xs := ⟨fun i j hi hj hij => lt_of_lt_of_le (by norm_num) (hsep i j hi hj hij)⟩
    exact f3.same (f2 ▸ e2.cellMesh hd)

end VoroCrust
