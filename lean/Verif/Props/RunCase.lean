import Verif.Props.Run
import Verif.Props.SurfaceMeshCase
import Verif.Props.FrontEnds

/-! The tetrahedron of C104 for C109: from the spheres to the mesh. -/

namespace VoroCrust

open Classical

/-! ## The two sides -/

theorem tet_merged {q d : Nat} (hq : q < 8) (hd : d < 3) : mergedSeed (tetSide 23) (tetSide 3) q d = tetPosi q d := by
  have := tetMesh_pos (q := q) (by omega) hd
  unfold seedPos at this
  rw [tetMesh_first hq] at this
  exact this

theorem tet_centre {s d : Nat} (hs : s < 4) (hd : d < 3) : tetZ.at s d = 39 * (tetVi s d : ℝ) := by
  rw [tetZ_at hs]
  unfold tetSphere
  rw [if_pos hd]
  interval_cases s <;> interval_cases d <;> norm_num [tetV, tetVi]

/-- The test for the side of a seed, up to a factor. -/
def tetDot (i u w s p : Nat) : ℤ :=
  (tetPosi p 0 - tetPosi s 0) * ((tetVi u 1 - tetVi i 1) * (tetVi w 2 - tetVi i 2) - (tetVi u 2 - tetVi i 2) * (tetVi w 1 - tetVi i 1)) +
  (tetPosi p 1 - tetPosi s 1) * ((tetVi u 2 - tetVi i 2) * (tetVi w 0 - tetVi i 0) - (tetVi u 0 - tetVi i 0) * (tetVi w 2 - tetVi i 2)) +
  (tetPosi p 2 - tetPosi s 2) * ((tetVi u 0 - tetVi i 0) * (tetVi w 1 - tetVi i 1) - (tetVi u 1 - tetVi i 1) * (tetVi w 0 - tetVi i 0))

noncomputable abbrev tetFans : FanEnv := fanEnvOf tetZ (tetSide 23) (tetSide 3)

theorem tet_below {i u w s p : Nat} (hi : i < 4) (hu : u < 4) (hw : w < 4) (hs : s < 8) (hp : p < 8) : PairBelow tetFans i u w s p ↔ 0 < tetDot i u w s p := by
  have e : dot3 (fun d => tetFans.seed p d - tetFans.seed s d) (areaVec ![tetFans.sphere i, tetFans.sphere u, tetFans.sphere w]) = 1521 * (tetDot i u w s p : ℝ) := by
    show dot3 _ (areaVec (centreTri (tetZ.at i) (tetZ.at u) (tetZ.at w))) = _
    unfold dot3
    rw [(areaVec_at _ _ _).1, (areaVec_at _ _ _).2.1, (areaVec_at _ _ _).2.2]
    have h : ∀ q (d : Fin 3), q < 8 → tetFans.seed q d = tetPosi q d := fun q d hq => tet_merged hq d.2
    simp only
    rw [h p 0 hp, h p 1 hp, h p 2 hp, h s 0 hs, h s 1 hs, h s 2 hs, tet_centre hi (by norm_num), tet_centre hi (by norm_num), tet_centre hi (by norm_num), tet_centre hu (by norm_num), tet_centre hu (by norm_num),
      tet_centre hu (by norm_num), tet_centre hw (by norm_num), tet_centre hw (by norm_num), tet_centre hw (by norm_num)]
    unfold tetDot
    push_cast
    norm_num
    ring
  unfold PairBelow
  rw [e]
  constructor
  · intro h
    have : (0 : ℝ) < (tetDot i u w s p : ℝ) := by linarith
    exact_mod_cast this
  · intro h
    have : (0 : ℝ) < (tetDot i u w s p : ℝ) := by exact_mod_cast h
    linarith

def tetPairs : List SeedAttr := [⟨4, 0, 1, 2⟩, ⟨5, 0, 3, 1⟩, ⟨6, 0, 2, 3⟩, ⟨7, 1, 3, 2⟩, ⟨0, 0, 1, 2⟩, ⟨1, 0, 3, 1⟩, ⟨2, 0, 2, 3⟩, ⟨3, 1, 3, 2⟩]

theorem tet_pairs : tetFans.attr = tetPairs := rfl

def tetSpokes (i s u v : Nat) : Bool := match tetPairs[s]? with | none => false | some a => decide ([a.s1, a.s2, a.s3].Perm [i, u, v])

theorem tet_spokes (i s u v : Nat) : Spokes tetFans i s u v ↔ tetSpokes i s u v = true := by
  unfold Spokes tetSpokes
  rw [tet_pairs]
  cases h : tetPairs[s]? with
  | none => simp
  | some a => simp

theorem tet_spokes_lt {i s u v : Nat} (h : Spokes tetFans i s u v) : s < 8 ∧ i < 4 ∧ u < 4 ∧ v < 4 := by
  obtain ⟨a, e, hp⟩ := h
  have hs : s < 8 := (List.getElem?_eq_some_iff.1 e).1
  obtain ⟨h1, h2, h3⟩ := tet_attrs_lt a (List.mem_of_getElem? e)
  have : ∀ x ∈ [i, u, v], x < 4 := fun x hx => by
    have := hp.mem_iff.2 hx
    simp only [List.mem_cons, List.not_mem_nil, or_false] at this
    rcases this with rfl | rfl | rfl <;> assumption
  exact ⟨hs, this i (by simp), this u (by simp), this v (by simp)⟩

theorem tet_partner {s p : Nat} (h : Partner tetFans s p) : p = (s + 4) % 8 := by
  obtain ⟨a, e, rfl⟩ := h
  have hs : s < 8 := (List.getElem?_eq_some_iff.1 e).1
  rw [tet_pairs] at e
  interval_cases s <;> simp only [tetPairs, List.getElem?_cons_zero, List.getElem?_cons_succ, Option.some.injEq] at e <;> subst e <;> rfl

def tetTurn (i u w v s t : Nat) : Bool :=
  decide (u ≠ v) && tetSpokes i s u w && tetSpokes i t w v && (decide (0 < tetDot i u w s ((s + 4) % 8)) == decide (0 < tetDot i w v t ((t + 4) % 8)))

theorem tet_turn {i s t : Nat} : TurnStep tetFans i s t ↔ ∃ u w v : Fin 4, i < 4 ∧ s < 8 ∧ t < 8 ∧ tetTurn i u w v s t = true := by
  constructor
  · rintro ⟨u, w, v, p, q, h1, h2, h3, h4, h5, h6⟩
    obtain ⟨hs, hi, hu, hw⟩ := tet_spokes_lt h2
    obtain ⟨ht, -, -, hv⟩ := tet_spokes_lt h3
    obtain rfl := tet_partner h4
    obtain rfl := tet_partner h5
    rw [tet_below hi hu hw hs (by omega), tet_below hi hw hv ht (by omega)] at h6
    refine ⟨⟨u, hu⟩, ⟨w, hw⟩, ⟨v, hv⟩, hi, hs, ht, ?_⟩
    unfold tetTurn
    simp [h1, (tet_spokes _ _ _ _).1 h2, (tet_spokes _ _ _ _).1 h3, h6]
  · rintro ⟨u, w, v, hi, hs, ht, h⟩
    unfold tetTurn at h
    simp only [Bool.and_eq_true, decide_eq_true_eq, beq_iff_eq, decide_eq_decide] at h
    obtain ⟨⟨⟨h1, h2⟩, h3⟩, h4⟩ := h
    have hp : ∀ s, s < 8 → Partner tetFans s ((s + 4) % 8) := fun s hs => by
      refine ⟨tetPairs[s]'(by exact hs), List.getElem?_eq_getElem (by exact hs), ?_⟩
      interval_cases s <;> rfl
    refine ⟨u, w, v, _, _, h1, (tet_spokes _ _ _ _).2 h2, (tet_spokes _ _ _ _).2 h3, hp s hs, hp t ht, ?_⟩
    rw [tet_below hi u.2 w.2 hs (by omega), tet_below hi w.2 v.2 ht (by omega)]
    exact h4

theorem tet_sides {s t : Nat} (h : AlongSurface tetFans 4 s t) : s < 4 ↔ t < 4 := by
  refine C84_separated tetFans 4 (fun s => s < 4) (fun i s t hi h => ?_) h
  obtain ⟨u, w, v, -, hs, ht, h⟩ := tet_turn.1 h
  have key : ∀ i u w v : Fin 4, ∀ s t : Fin 8, tetTurn i u w v s t = true → (s.val < 4 ↔ t.val < 4) := by decide +kernel
  exact key ⟨i, hi⟩ u w v ⟨s, hs⟩ ⟨t, ht⟩ h

theorem tet_outer {s t : Nat} (hs : s < 4) (ht : t < 4) : AlongSurface tetFans 4 s t := by
  have key : ∀ s t : Fin 4, s = t ∨ ∃ i u w v : Fin 4, tetTurn i u w v s t = true := by decide +kernel
  rcases key ⟨s, hs⟩ ⟨t, ht⟩ with h | ⟨i, u, w, v, h⟩
  · cases h
    exact Relation.ReflTransGen.refl
  · exact Relation.ReflTransGen.single ⟨i, i.2, tet_turn.2 ⟨u, w, v, i.2, by omega, by omega, h⟩⟩

theorem tet_smooth : SmoothSurface tetZ tetFace (tetSide 23) (tetSide 3) (1 / 4) := by
  refine ⟨⟨by norm_num, by norm_num, .inr ⟨⟨⟨rfl, by show 0 < 3; norm_num, BuiltTree.rebuilt _ false _ tet_links.choose_spec⟩, rfl, fun i _ => ?_⟩, fun i j _ _ => ?_⟩, .inl rfl, .inl rfl⟩, rfl, rfl, tet_stored, tet_noGrazing, tet_notThin,
    tet_watertight, tet_oneFan, 0, 4, by show 0 < 4 + 4; norm_num, by show 4 < 4 + 4; norm_num, fun h => ?_⟩
  · show (0 : ℝ) ≤ 66
    norm_num
  · show (66 : ℝ) ≤ 66 + _
    have := euclid_nonneg 3 (tetZ.S.pts i) (tetZ.S.pts j)
    linarith
  · have := tet_sides h
    omega

/-- The outer four seeds are region 0. -/
theorem tet_regions {reg : Nat → Nat} (h : SidesOK tetZ (tetSide 23) (tetSide 3) reg) {q : Nat} (hq : q < 8) : reg q = 0 ↔ q < 4 := by
  obtain ⟨x, e, hx, he, hr, hn⟩ := h.outside
  have he : e < 8 := he
  have hx' : ∀ d, d < 3 → x d = 115 := fun d hd => by
    obtain ⟨i, j, hi, hj, e1, hb⟩ := hx d
    have hi : i < 8 := hi
    have hj : j < 8 := hj
    have b : ∀ q : Fin 8, ∀ d : Fin 3, -23 ≤ tetPosi q d ∧ tetPosi q d ≤ 23 := by decide +kernel
    have c : ∀ d : Fin 3, ∃ p q : Fin 8, tetPosi p d = -23 ∧ tetPosi q d = 23 := by decide +kernel
    obtain ⟨p, q, hp, hq⟩ := c ⟨d, hd⟩
    have b1 := (hb p (by exact p.2)).1
    have b2 := (hb q (by exact q.2)).2
    rw [tet_merged hi hd, tet_merged p.2 hd] at b1
    rw [tet_merged q.2 hd, tet_merged hj hd] at b2
    rw [tet_merged hi hd, tet_merged hj hd] at e1
    have c1 := (b ⟨i, hi⟩ ⟨d, hd⟩).1
    have c2 := (b ⟨j, hj⟩ ⟨d, hd⟩).2
    simp only at hp hq c1 c2
    rw [hp] at b1
    rw [hq] at b2
    have f1 : tetPosi i d = -23 := le_antisymm (by exact_mod_cast b1) c1
    have f2 : tetPosi j d = 23 := le_antisymm c2 (by exact_mod_cast b2)
    rw [e1, f1, f2]
    norm_num
  have he4 : e < 4 := by
    by_contra hge
    have h0 := hn 0 (by show 0 < 4 + 4; norm_num)
    have g : euclid 3 x (mergedSeed (tetSide 23) (tetSide 3) 0) ^ 2 = 35972 := by
      rw [euclid3_sq, hx' 0 (by norm_num), hx' 1 (by norm_num), hx' 2 (by norm_num), tet_merged (by norm_num) (by norm_num), tet_merged (by norm_num) (by norm_num), tet_merged (by norm_num) (by norm_num)]
      norm_num [tetPosi, tetVi]
    have g' : 35972 < euclid 3 x (mergedSeed (tetSide 23) (tetSide 3) e) ^ 2 := by
      rw [euclid3_sq, hx' 0 (by norm_num), hx' 1 (by norm_num), hx' 2 (by norm_num), tet_merged he (by norm_num), tet_merged he (by norm_num), tet_merged he (by norm_num)]
      interval_cases e <;> first | omega | norm_num [tetPosi, tetVi]
    have := pow_le_pow_left₀ (euclid_nonneg _ _ _) h0 2
    linarith
  constructor
  · intro h0
    exact (tet_sides ((h.sides e q he hq).1 (hr.trans h0.symm))).1 he4
  · intro hq4
    rw [← hr]
    exact (h.sides q e hq he).2 (tet_outer hq4 he4)

/-! ## The interior -/

/-- Options: a VCG file and nothing else. -/
noncomputable def tetSetup : MeshSetup := ⟨fun _ _ => false, none, 1 / 4, 100, 1, id, id, none, false, true, false⟩

def tetDraws (inputs : List RoundInput) : RunDraws := ⟨fun _ _ => [], fun _ _ => [], fun _ => 0, [], inputs, fun _ => 0⟩

theorem tet_setup {inputs : List RoundInput} (h : ∀ inp ∈ inputs, inp.OK) : tetSetup.OK tetZ (tetSide 23) (tetSide 3) (tetDraws inputs) :=
  ⟨monotone_id, fun _ => rfl, by norm_num [tetSetup], fun t ht => by simp [tetSetup] at ht, fun t ht => by simp [tetSetup] at ht, h, fun _ => by norm_num [tetDraws], fun _ _ h => by simp [tetSetup] at h⟩

/-- What the interior stage leaves: the same eight seeds. -/
theorem tet_interior {reg : Nat → Nat} (hr : SidesOK tetZ (tetSide 23) (tetSide 3) reg) : ∃ (inputs : List RoundInput) (out : RunResult) (N : Nat), (∀ inp ∈ inputs, inp.OK) ∧
    (∀ lf, N ≤ lf → interiorRun id (featuresOf tetZ none) (1 / 4) 100 lf 1 none false (tetDraws inputs) (seedArrays (tetSide 23) (tetSide 3) reg) = some (some out)) ∧
    out.seeds.length = 8 ∧ ∀ (q : Nat) (b : SeedRec), out.seeds[q]? = some b → b.x = mergedSeed (tetSide 23) (tetSide 3) q ∧ b.region = reg q ∧ b.size = 66 := by
  have hS := tet_smooth
  have hF : (featuresOf tetZ none).OK (1 / 4) := ⟨hS.spheres.nonneg, hS.spheres.lt, recsOf_good hS.spheres.s, recsOf_good hS.spheres.e, recsOf_good hS.spheres.c⟩
  have hsz : SizingOK (featuresOf tetZ none) := fun q hq => by simp [featuresOf] at hq
  have eE : (featuresOf tetZ none).edges = [] := recsOf_nil rfl
  have eC : (featuresOf tetZ none).corners = [] := recsOf_nil rfl
  have hc : (featuresOf tetZ none).corners.length ≤ (featuresOf tetZ none).surface.length := by rw [eC]; exact Nat.zero_le _
  have hz : (featuresOf tetZ none).sizing.length ≤ (featuresOf tetZ none).surface.length := Nat.zero_le _
  have hlen := seedArrays_len (up := tetSide 23) (lo := tetSide 3) reg
  have hlen8 : (seedArrays (tetSide 23) (tetSide 3) reg).length = 8 := hlen
  have hsize : ∀ q, q < 8 → mergedSeed (tetSide 23) (tetSide 3) q 3 = 66 := fun q _ => by
    unfold mergedSeed
    split <;> rfl
  have hall : ∀ (q : Nat) (a : SeedRec), (seedArrays (tetSide 23) (tetSide 3) reg)[q]? = some a → q < 8 ∧ a.x = mergedSeed (tetSide 23) (tetSide 3) q ∧ a.region = reg q ∧ a.size = 66 := fun q a ha => by
    obtain ⟨hq, rfl⟩ := seedArrays_pos reg ha
    exact ⟨hq, rfl, rfl, hsize q hq⟩
  have hall' : ∀ a ∈ seedArrays (tetSide 23) (tetSide 3) reg, a.size = 66 := fun a ha => by
    obtain ⟨q, hq⟩ := List.getElem?_of_mem ha
    exact (hall q a hq).2.2.2
  have hne : seedArrays (tetSide 23) (tetSide 3) reg ≠ [] := fun h => by rw [h] at hlen8; simp at hlen8
  obtain ⟨xs, os, N1, a1, a2, a3, a4, -⟩ := C87_edge_seeds_partial (seedArrays (tetSide 23) (tetSide 3) reg) (featuresOf tetZ none) (1 / 4) hF hc hz hne (fun a ha => by rw [hall' a ha]; norm_num)
    (fun i s hs => by rw [eE] at hs; simp at hs) (fun _ _ => []) (fun _ _ => []) (fun i s hs => by rw [eE] at hs; simp at hs)
  rw [eE] at a4
  obtain rfl := List.length_eq_zero_iff.1 a4
  simp only [List.flatMap_nil, List.append_nil] at a1
  have hx : ∀ (q : Nat) (b : SeedRec), xs[q]? = some b → q < 8 ∧ b.x = mergedSeed (tetSide 23) (tetSide 3) q ∧ b.region = reg q ∧ b.size = 66 := fun q b hb => by
    have hq : q < 8 := by rw [← hlen8, ← a2]; exact (List.getElem?_eq_some_iff.1 hb).1
    obtain ⟨a, ha⟩ : ∃ a, (seedArrays (tetSide 23) (tetSide 3) reg)[q]? = some a := ⟨_, seedArrays_get reg hq⟩
    obtain ⟨-, e1, e2, e3⟩ := hall q a ha
    obtain ⟨x1, x2, x3, c, hc', hcb⟩ := a3 q a b ha hb
    refine ⟨hq, x1.trans e1, x2.trans e2, le_antisymm (x3.trans e3.le) ?_⟩
    have := hall' c hc'
    have := euclid_nonneg 3 a.x c.x
    linarith
  have hx' : ∀ a ∈ xs, a.size = 66 := fun a ha => by
    obtain ⟨q, hq⟩ := List.getElem?_of_mem ha
    exact (hx q a hq).2.2.2
  have h4 : ∃ a ∈ xs, a.region ≠ 0 := by
    have hl : 4 < xs.length := by rw [a2, hlen8]; norm_num
    refine ⟨xs[4], List.getElem_mem hl, ?_⟩
    rw [(hx 4 _ (List.getElem?_eq_getElem hl)).2.2.1, Ne, tet_regions hr (by norm_num)]
    norm_num
  obtain ⟨inputs, out, N2, b1, b2, b3, b4⟩ := generateInterior_blocked (ρ := id) (rmax := 100) (seeds := xs) monotone_id (fun _ => rfl) hF hsz (by norm_num) hc hz 1 (fun a ha => by rw [hx' a ha]; norm_num) h4 (by
    intro a ha r hr1 ⟨c, hc1, hc2⟩
    rw [hx' a ha] at hr1
    rw [hx' c hc1] at hc2
    have h66 : r = 66 := le_antisymm hr1 (by have := euclid_nonneg 3 a.x c.x; linarith)
    obtain ⟨q, hq⟩ := List.getElem?_of_mem ha
    obtain ⟨hq8, ex, -⟩ := hx q a hq
    obtain ⟨s, hs, hd⟩ : ∃ s, s < 4 ∧ euclid 3 (mergedSeed (tetSide 23) (tetSide 3) q) (tetSphere s) = 66 := by
      obtain ⟨a', ha'⟩ : ∃ a', (mergeSeedAttrs (tetSide 23) (tetSide 3))[q]? = some a' := ⟨_, List.getElem?_eq_getElem (by exact hq8)⟩
      have hse := (tet_stored.exact tet_noGrazing ha').seed
      have h1 : a'.s1 < 4 := hse.valid _ (.inl rfl)
      have := hse.on a'.s1 (.inl rfl)
      rw [tetZ_at h1] at this
      exact ⟨a'.s1, h1, this⟩
    refine blocked_of (q := ⟨tetSphere s, 66, 0⟩) (.inl (recsOf_mem.2 ⟨s, hs, rfl⟩)) ?_
    simp only
    rw [ex, hd, h66]
    norm_num)
  refine ⟨inputs, ⟨out, [], []⟩, max N1 N2, b1, fun lf hf => ?_, by rw [b3, a2, hlen8], fun q b hb => ?_⟩
  · unfold interiorRun
    simp only [tetDraws, a1 lf (by omega), imposeStage, b2 lf (by omega), finishSeeds, Option.map_some]
    rfl
  · have hq : q < xs.length := by rw [← b3]; exact (List.getElem?_eq_some_iff.1 hb).1
    obtain ⟨y1, y2, y3, c, hc', hcb⟩ := b4 q _ b (List.getElem?_eq_getElem hq) hb
    obtain ⟨-, e1, e2, e3⟩ := hx q _ (List.getElem?_eq_getElem hq)
    exact ⟨y1.trans e1, y2.trans e2, le_antisymm (y3.trans e3.le) (by rw [hx' c hc'] at hcb; exact hcb)⟩

/-! ## The mesh -/

theorem tet_cell {xs : List SeedRec} (hl : xs.length = 8) (hp : ∀ q d, q < 8 → d < 3 → seedPos xs q d = tetPosi q d) {i : Nat} (h4 : 4 ≤ i) (hi : i < 8) {z : Nat → ℝ} (hz : InVoronoi xs i z) :
    euclid 3 z (seedPos xs i) < 68 := by
  have hd : ∀ q, q < 8 → distSq3 z (seedPos xs q) = (z 0 - tetPosi q 0) ^ 2 + (z 1 - tetPosi q 1) ^ 2 + (z 2 - tetPosi q 2) ^ 2 := fun q hq => by
    unfold distSq3
    rw [hp q 0 hq (by norm_num), hp q 1 hq (by norm_num), hp q 2 hq (by norm_num)]
    ring
  have near : ∀ q, q < 8 → (z 0 - tetPosi i 0) ^ 2 + (z 1 - tetPosi i 1) ^ 2 + (z 2 - tetPosi i 2) ^ 2 ≤ (z 0 - tetPosi q 0) ^ 2 + (z 1 - tetPosi q 1) ^ 2 + (z 2 - tetPosi q 2) ^ 2 := fun q hq => by
    have := hz q (by rw [hl]; exact hq)
    rw [dist_mono, hd i hi, hd q hq] at this
    exact this
  have far : distSq3 z (seedPos xs i) ≤ 4500 := by
    rw [hd i hi]
    obtain ⟨s0, e0⟩ : ∃ s, s = z 0 + z 1 + z 2 := ⟨_, rfl⟩
    obtain ⟨s1, e1⟩ : ∃ s, s = z 0 - z 1 - z 2 := ⟨_, rfl⟩
    obtain ⟨s2, e2⟩ : ∃ s, s = -z 0 + z 1 - z 2 := ⟨_, rfl⟩
    obtain ⟨s3, e3⟩ : ∃ s, s = -z 0 - z 1 + z 2 := ⟨_, rfl⟩
    have hsum : s0 + s1 + s2 + s3 = 0 := by linarith
    have hsq : z 0 ^ 2 + z 1 ^ 2 + z 2 ^ 2 = (s0 ^ 2 + s1 ^ 2 + s2 ^ 2 + s3 ^ 2) / 4 := by rw [e0, e1, e2, e3]; ring
    have n4 := near 4 (by norm_num)
    have n5 := near 5 (by norm_num)
    have n6 := near 6 (by norm_num)
    have n7 := near 7 (by norm_num)
    have m := near (i - 4) (by omega)
    clear near hd hz
    interval_cases i
    · norm_num [tetPosi, tetVi] at n5 n6 n7 m ⊢
      have := tet_corner (s0 := s3) (s1 := s0) (s2 := s1) (s3 := s2) (hsq.trans (by ring)) (by linarith) (by linarith) (by linarith) (by linarith) (by linarith)
      linarith
    · norm_num [tetPosi, tetVi] at n4 n6 n7 m ⊢
      have := tet_corner (s0 := s2) (s1 := s0) (s2 := s1) (s3 := s3) (hsq.trans (by ring)) (by linarith) (by linarith) (by linarith) (by linarith) (by linarith)
      linarith
    · norm_num [tetPosi, tetVi] at n4 n5 n7 m ⊢
      have := tet_corner (s0 := s1) (s1 := s0) (s2 := s2) (s3 := s3) (hsq.trans (by ring)) (by linarith) (by linarith) (by linarith) (by linarith) (by linarith)
      linarith
    · norm_num [tetPosi, tetVi] at n4 n5 n6 m ⊢
      have := tet_corner (s0 := s0) (s1 := s1) (s2 := s2) (s3 := s3) (hsq.trans (by ring)) (by linarith) (by linarith) (by linarith) (by linarith) (by linarith)
      linarith
  rw [← sqrt_distSq3]
  refine lt_of_le_of_lt (Real.sqrt_le_sqrt far) ?_
  rw [Real.sqrt_lt' (by norm_num)]
  norm_num

theorem tet_meshable {xs : List SeedRec} (hl : xs.length = 8) (h : ∀ (q : Nat) (b : SeedRec), xs[q]? = some b → b.x = mergedSeed (tetSide 23) (tetSide 3) q ∧ (b.region = 0 ↔ q < 4) ∧ b.size = 66) : MeshableSeeds xs := by
  have hp : ∀ q d, q < 8 → d < 3 → seedPos xs q d = tetPosi q d := fun q d hq hd => by
    have e : xs[q]? = some xs[q] := List.getElem?_eq_getElem (by omega)
    unfold seedPos
    rw [e]
    show (xs[q]).x d = _
    rw [(h q _ e).1, tet_merged hq hd]
  obtain ⟨g1, g2, g3⟩ := grid_conditions (xs := xs) (by
    rw [hl]
    intro i hi z hz
    refine ⟨fun k => tetPosi z k - tetPosi i k, fun k hk => ⟨by rw [hp z k hz hk, hp i k hi hk]; push_cast; ring, ?_⟩⟩
    have h : ∀ i z : Fin 8, ∀ k : Fin 3, |tetPosi z k - tetPosi i k| ≤ 100 := by decide +kernel
    exact h ⟨i, hi⟩ ⟨z, hz⟩ ⟨k, hk⟩) (by
    rw [hl]
    intro i j hi hj h
    have key : ∀ i j : Fin 8, (∀ d : Fin 3, tetPosi i d = tetPosi j d) → i = j := by decide +kernel
    have := key ⟨i, hi⟩ ⟨j, hj⟩ fun d => by
      have := h d d.2
      rw [hp i d hi d.2, hp j d hj d.2] at this
      exact_mod_cast this
    exact congrArg Fin.val this) fun i s hi hr => by
      have hlt : i < 8 := by rw [← hl]; exact (List.getElem?_eq_some_iff.1 hi).1
      obtain ⟨-, h0, h66⟩ := h i s hi
      have h4 : 4 ≤ i := not_lt.1 fun hh => hr (h0.2 hh)
      rw [h66]
      refine ⟨⟨132, by norm_num⟩, by norm_num, fun z hz => ?_⟩
      have := tet_cell hl hp h4 hlt hz
      linarith
  exact ⟨g1, g2, few_nearest (by rw [hl]; norm_num), g3⟩

/-- Not vacuous: the whole second part of the run for the tetrahedron.  With some random numbers it ends with the eight seeds of the surface, four of them outside, and a VCG file of the four cells inside. -/
theorem tet_run : ∃ (D : RunDraws) (out : RunResult) (N F : Nat), ∀ lf f' f, N ≤ lf → F ≤ f' → F ≤ f →
    ∃ R file, meshModel tetSetup tetZ (tetSide 23) (tetSide 3) D lf f' f = some (some (out, some R)) ∧ MeshSeedsOK tetZ (tetSide 23) (tetSide 3) out.seeds ∧ out.seeds.length = 8 ∧
      (∀ (q : Nat) (b : SeedRec), out.seeds[q]? = some b → (b.region = 0 ↔ q < 4)) ∧ IsDiagramMesh out.seeds R.mesh ∧ R.cells = 4 ∧ R.vcg = some file ∧ VcgCells (FlatFace out.seeds) out.seeds R.seeds file := by
  obtain ⟨reg, nr, -, ec, hr, -⟩ := C109_mesh_run tet_smooth (tet_setup (inputs := []) (by simp))
  obtain ⟨inputs, out, N1, hin, ho, hl, hb⟩ := tet_interior hr
  obtain ⟨reg', nr', N, ec', -, hN⟩ := C109_mesh_run tet_smooth (tet_setup hin)
  rw [ec] at ec'
  obtain ⟨rfl, rfl⟩ := Prod.mk.inj (Option.some.inj ec')
  have hlt : ∀ (q : Nat) (b : SeedRec), out.seeds[q]? = some b → q < 8 := fun q b h => by rw [← hl]; exact (List.getElem?_eq_some_iff.1 h).1
  have hreg : ∀ (q : Nat) (b : SeedRec), out.seeds[q]? = some b → (b.region = 0 ↔ q < 4) := fun q b h => by rw [(hb q b h).2.1]; exact tet_regions hr (hlt q b h)
  obtain ⟨-, hm⟩ := (hN (max N N1) (le_max_left _ _)).2.2 out (ho _ (le_max_right _ _))
  obtain ⟨F, hF⟩ := hm (tet_meshable hl fun q b h => ⟨(hb q b h).1, hreg q b h, (hb q b h).2.2⟩)
  refine ⟨tetDraws inputs, out, max N N1, F, fun lf f' f h1 h2 h3 => ?_⟩
  obtain ⟨hok, -⟩ := (hN lf (le_trans (le_max_left _ _) h1)).2.2 out (ho _ (le_trans (le_max_right _ _) h1))
  obtain ⟨mesh, -, -, hR⟩ := hF f' f h2 h3
  obtain ⟨R, e, hfiles⟩ := hR fun h => by simp [tetSetup] at h
  have hlf : ∀ lf, max N N1 ≤ lf → interiorRun tetSetup.ρ (featuresOf tetZ tetSetup.size) tetSetup.L tetSetup.rmax lf tetSetup.threads tetSetup.imposed tetSetup.generate (tetDraws inputs) (seedArrays (tetSide 23) (tetSide 3) reg) = some (some out) :=
    fun lf h => ho lf (le_trans (le_max_right _ _) h)
  have e' : meshModel tetSetup tetZ (tetSide 23) (tetSide 3) (tetDraws inputs) lf f' f = meshModel tetSetup tetZ (tetSide 23) (tetSide 3) (tetDraws inputs) (max N N1) f' f := by
    unfold meshModel
    simp only [ec, hlf lf h1, hlf _ le_rfl]
  unfold FilesOK at hfiles
  rw [if_pos (show (tetSetup.vcg || tetSetup.exo) = true from rfl)] at hfiles
  obtain ⟨r, rfl, hd, hx⟩ := hfiles
  have hv := hx.vcg
  rw [if_pos (show tetSetup.vcg = true from rfl)] at hv
  obtain ⟨file, ef, hfile⟩ := hv
  refine ⟨r, file, e'.trans e, hok, hl, hreg, hd, ?_, ef, hfile⟩
  rw [hx.cells, hl]
  have : ((Finset.range 8).filter fun i => InnerSeed out.seeds i) = (Finset.range 8).filter fun i => 4 ≤ i := by
    refine Finset.filter_congr fun i hi => ?_
    have hi' : i < out.seeds.length := by rw [hl]; exact Finset.mem_range.1 hi
    have e : out.seeds[i]? = some out.seeds[i] := List.getElem?_eq_getElem hi'
    have := hreg i _ e
    constructor
    · rintro ⟨s, hs, h0⟩
      rw [e] at hs
      obtain rfl := Option.some.inj hs
      by_contra h
      exact h0 (this.2 (not_le.1 h))
    · intro h
      exact ⟨_, e, fun h0 => by have := this.1 h0; omega⟩
  rw [this]
  decide

end VoroCrust
