import Verif.Model.Explicit
import Verif.Props.MeshRun
import Verif.Props.Merge

/-! # The file for PFLOTRAN (C55) -/

namespace VoroCrust

open Classical

/-- A seed inside. -/
def SeedRec.inside (s : SeedRec) : Bool := decide (s.region ≠ 0)

/-- The place of seed `i` among the seeds inside, from 0. -/
def placeInside (xs : List SeedRec) (i : Nat) : Nat := (xs.take i).countP SeedRec.inside

theorem placeInside_succ {xs : List SeedRec} {i : Nat} {s : SeedRec} (h : xs[i]? = some s) : placeInside xs (i + 1) = placeInside xs i + if s.region = 0 then 0 else 1 := by
  unfold placeInside
  rw [List.take_add_one, h, List.countP_append]
  by_cases hs : s.region = 0 <;> simp [SeedRec.inside, hs]

theorem placeInside_mono {xs : List SeedRec} {i j : Nat} (h : i ≤ j) : placeInside xs i ≤ placeInside xs j :=
  (List.take_sublist_take_left h).countP_le

theorem placeInside_lt {xs : List SeedRec} {i j : Nat} {s : SeedRec} (hs : xs[i]? = some s) (hr : s.region ≠ 0) (h : i < j) : placeInside xs i < placeInside xs j := by
  have h1 := placeInside_succ hs
  rw [if_neg hr] at h1
  have h2 := placeInside_mono (xs := xs) (Nat.succ_le_of_lt h)
  rw [Nat.succ_eq_add_one] at h2
  omega

theorem vcgIndex_spec {n : Nat} {xs : List SeedRec} (k : Nat) (hk : k ≤ xs.length) :
    (vcgIndex n xs k).2 = placeInside xs k ∧ ∀ i s, i < k → xs[i]? = some s → s.region ≠ 0 → (vcgIndex n xs k).1 i = placeInside xs i := by
  induction k with
  | zero => exact ⟨by simp [vcgIndex, placeInside], fun i s h => by omega⟩
  | succ k ih =>
    obtain ⟨h1, h2⟩ := ih (by omega)
    have hs := List.getElem?_eq_getElem (show k < xs.length by omega)
    unfold vcgIndex
    rw [hs]
    simp only
    rw [placeInside_succ hs]
    split_ifs with hr
    · refine ⟨h1, fun i s hi hsi hri => ?_⟩
      simp only [upd]
      rw [if_neg]
      · refine h2 i s ?_ hsi hri
        rcases Nat.lt_or_eq_of_le (Nat.lt_succ_iff.1 hi) with g | rfl
        · exact g
        · rw [hs] at hsi
          exact absurd ((Option.some.inj hsi) ▸ hr) hri
      · rintro rfl
        rw [hs] at hsi
        exact absurd ((Option.some.inj hsi) ▸ hr) hri
    · refine ⟨by rw [h1], fun i s hi hsi hri => ?_⟩
      simp only [upd]
      split_ifs with hik
      · rw [hik, h1]
      · exact h2 i s (by omega) hsi hri

/-- What the writer needs of the mesh: C54 and C56. -/
structure VcgOK (xs : List SeedRec) (M : VMesh) (cf : Nat → List Nat) : Prop where
  faces : ∀ k, k < M.nf → ∃ g, M.faces k = some g ∧ (∃ s, xs[g.seed]? = some s ∧ s.region ≠ 0) ∧ g.nbr < xs.length ∧ g.nbr ≠ g.seed ∧ ∀ v ∈ g.verts, v < M.nv ∧ ∃ p, M.vertices v = some p
  cells : ∀ i s, xs[i]? = some s → s.region ≠ 0 → ∀ k ∈ cf i, k < M.nf

/-- The area of a triangle from the lengths of its sides. -/
noncomputable def sidesArea (x y z : Nat → ℝ) : ℝ :=
  1 / 2 * Real.sqrt (euclid 3 x y ^ 2 * euclid 3 x z ^ 2 - ((euclid 3 x y ^ 2 + euclid 3 x z ^ 2 - euclid 3 y z ^ 2) / 2) ^ 2)

/-- The areas of the triangles of a corner with the others, one after the other. -/
noncomputable def fanSides (o : Nat → ℝ) : List (Nat → ℝ) → ℝ
  | a :: b :: r => sidesArea o a b + fanSides o (b :: r)
  | _ => 0

/-- The area of a polygon, cut into triangles at its first corner. -/
noncomputable def polygonArea : List (Nat → ℝ) → ℝ
  | [] => 0
  | o :: r => fanSides o r

theorem crossAt_sides (x y z : Nat → ℝ) : 0.5 * length3 (crossAt x y z) = sidesArea x y z := by
  unfold sidesArea length3
  have e : ∀ x y : Nat → ℝ, euclid 3 x y ^ 2 = (x 0 - y 0) ^ 2 + (x 1 - y 1) ^ 2 + (x 2 - y 2) ^ 2 := fun x y => by
    rw [← distSq3_sq]; unfold distSq3; ring
  rw [e x y, e x z, e y z]
  norm_num
  congr 1
  simp only [crossAt, if_true, if_false, one_ne_zero, (by norm_num : (2 : Nat) ≠ 0), (by norm_num : (2 : Nat) ≠ 1)]
  ring

theorem fanArea_some {M : VMesh} {o : Nat} {o' : Nat → ℝ} (ho : M.vertex o = some o') (l : List Nat) : (∀ v ∈ l, ∃ p, M.vertex v = some p) →
    ∃ ps : List (Nat → ℝ), List.Forall₂ (fun v p => M.vertex v = some p) l ps ∧ 0 ≤ fanSides o' ps ∧ ∀ acc, fanArea M o l acc = some (acc + fanSides o' ps) := by
  induction l with
  | nil => intro _; exact ⟨[], .nil, by simp [fanSides], fun acc => by simp [fanArea, fanSides]⟩
  | cons a l ih =>
    intro h
    obtain ⟨a', ea⟩ := h a List.mem_cons_self
    obtain ⟨ps, hps, h0, hacc⟩ := ih fun v hv => h v (List.mem_cons_of_mem _ hv)
    refine ⟨a' :: ps, .cons ea hps, ?_, fun acc => ?_⟩
    · cases hps with
      | nil => simp [fanSides]
      | @cons b b' r rs eb hrs =>
        unfold fanSides
        rw [← crossAt_sides]
        have : 0 ≤ length3 (crossAt o' a' b') := Real.sqrt_nonneg _
        linarith
    · cases hps with
      | nil => simp [fanSides, fanArea]
      | @cons b b' r rs eb hrs =>
        unfold fanArea
        rw [ho, ea, eb]
        simp only
        rw [hacc, crossAt_sides, fanSides, add_assoc]

theorem areaHeight_some {xs : List SeedRec} {M : VMesh} {cf : Nat → List Nat} (h : VcgOK xs M cf) {k : Nat} (hk : k < M.nf) :
    ∃ g a s t, M.faces k = some g ∧ xs[g.seed]? = some s ∧ s.region ≠ 0 ∧ xs[g.nbr]? = some t ∧ g.nbr ≠ g.seed ∧
      (0 ≤ a ∧ ∃ ps, List.Forall₂ (fun v p => M.vertices v = some p) g.verts ps ∧ a = polygonArea ps) ∧ areaHeight xs M k = some (a, 0.5 * euclid 3 s.x t.x) := by
  obtain ⟨g, e, ⟨s, hs, hr⟩, hn, hne, hv⟩ := h.faces k hk
  have hv' : ∀ v ∈ g.verts, ∃ p, M.vertex v = some p := fun v hvv => by
    obtain ⟨h1, p, h2⟩ := hv v hvv
    exact ⟨p, by unfold VMesh.vertex; rw [if_pos h1]; exact h2⟩
  have hvert : ∀ v p, M.vertex v = some p → M.vertices v = some p := fun v p hp => by
    unfold VMesh.vertex at hp
    split_ifs at hp
    exact hp
  have ha : ∃ a, faceArea M g = some a ∧ 0 ≤ a ∧ ∃ ps, List.Forall₂ (fun v p => M.vertices v = some p) g.verts ps ∧ a = polygonArea ps := by
    unfold faceArea
    cases hg : g.verts with
    | nil => exact ⟨0, rfl, le_refl _, [], .nil, rfl⟩
    | cons o r =>
      rw [hg] at hv'
      obtain ⟨o', eo⟩ := hv' o List.mem_cons_self
      obtain ⟨ps, h1, h2, h3⟩ := fanArea_some eo r (fun v hvv => hv' v (List.mem_cons_of_mem _ hvv))
      refine ⟨_, h3 0, by linarith, o' :: ps, .cons (hvert _ _ eo) (h1.imp hvert), by simp [polygonArea]⟩
  obtain ⟨a, ea, h0⟩ := ha
  refine ⟨g, a, s, xs[g.nbr], e, hs, hr, List.getElem?_eq_getElem hn, hne, h0, ?_⟩
  unfold areaHeight VMesh.face faceHeight
  rw [if_pos hk, e]
  simp only
  rw [ea, hs, List.getElem?_eq_getElem hn]
  simp only [sqrt_distSq3]

theorem cellVolume_some {xs : List SeedRec} {M : VMesh} {ar ht : Nat → ℝ} (l : List Nat) : (∀ k ∈ l, areaHeight xs M k = some (ar k, ht k)) → ∀ acc, cellVolume xs M l acc = some (acc + (l.map fun k => ar k * ht k / 3).sum) := by
  induction l with
  | nil => intro _ acc; simp [cellVolume]
  | cons k l ih =>
    intro h acc
    unfold cellVolume
    rw [h k List.mem_cons_self]
    simp only
    rw [ih (fun x hx => h x (List.mem_cons_of_mem _ hx)), List.map_cons, List.sum_cons]
    congr 1
    ring

theorem vcgCells_some {xs : List SeedRec} {M : VMesh} {cf : Nat → List Nat} {new : Nat → Nat} {ar ht : Nat → ℝ} (hah : ∀ k, k < M.nf → areaHeight xs M k = some (ar k, ht k))
    (hcf : ∀ i s, xs[i]? = some s → s.region ≠ 0 → ∀ k ∈ cf i, k < M.nf) (m : Nat) (hm : m ≤ xs.length) :
    ∃ l, vcgCells xs M cf new m = some l ∧ l.length = placeInside xs m ∧
      ∀ i s, i < m → xs[i]? = some s → s.region ≠ 0 → l[placeInside xs i]? = some ⟨new i + 1, s.x, ((cf i).map fun k => ar k * ht k / 3).sum, s.region⟩ := by
  induction m with
  | zero => exact ⟨[], rfl, by simp [placeInside], fun i s h => by omega⟩
  | succ m ih =>
    obtain ⟨l, e, h1, h2⟩ := ih (by omega)
    have hs := List.getElem?_eq_getElem (show m < xs.length by omega)
    unfold vcgCells
    rw [e, hs]
    simp only
    rw [placeInside_succ hs]
    split_ifs with hr
    · refine ⟨l, rfl, by rw [h1, Nat.add_zero], fun i s hi hsi hri => ?_⟩
      refine h2 i s ?_ hsi hri
      rcases Nat.lt_or_eq_of_le (Nat.lt_succ_iff.1 hi) with g | rfl
      · exact g
      · rw [hs] at hsi
        exact absurd ((Option.some.inj hsi) ▸ hr) hri
    · rw [cellVolume_some (cf m) (fun k hk => hah k (hcf m _ hs hr k hk))]
      refine ⟨_, rfl, by rw [List.length_append, h1]; rfl, fun i s hi hsi hri => ?_⟩
      rcases Nat.lt_or_eq_of_le (Nat.lt_succ_iff.1 hi) with g | rfl
      · rw [List.getElem?_append_left (by rw [h1]; exact placeInside_lt hsi hri g)]
        exact h2 i s g hsi hri
      · rw [hs] at hsi
        obtain rfl := Option.some.inj hsi
        rw [List.getElem?_append_right (by omega), h1, Nat.sub_self, zero_add]
        rfl

theorem vcgConns_some {xs : List SeedRec} {M : VMesh} {new : Nat → Nat} {cn : Nat → VcgConn} (h : ∀ k, k < M.nf → vcgConn xs M new k = some (cn k)) (m : Nat) (hm : m ≤ M.nf) :
    vcgConns xs M new m = some ((List.range m).map cn) := by
  induction m with
  | zero => rfl
  | succ m ih =>
    unfold vcgConns
    rw [ih (by omega), h m (by omega), List.range_succ, List.map_append]
    rfl

theorem length3_diff (x y : Nat → ℝ) : length3 (fun d => y d - x d) = euclid 3 x y := by
  rw [← sqrt_distSq3]
  unfold length3 distSq3
  congr 1
  ring

theorem unitNormal_spec (x y : Nat → ℝ) : (unitNormal x y = none ↔ euclid 3 x y = 0) ∧ ∀ n, unitNormal x y = some n → n 0 ^ 2 + n 1 ^ 2 + n 2 ^ 2 = 1 ∧ ∀ d, d < 3 → n d * euclid 3 x y = y d - x d := by
  unfold unitNormal
  rw [length3_diff]
  constructor
  · split_ifs with h <;> simp [h]
  · intro n hn
    split_ifs at hn with h
    obtain rfl := Option.some.inj hn
    have h2 : euclid 3 x y ^ 2 = (y 0 - x 0) ^ 2 + (y 1 - x 1) ^ 2 + (y 2 - x 2) ^ 2 := by
      rw [← distSq3_sq]
      unfold distSq3
      ring
    refine ⟨?_, fun d _ => by simp only; field_simp⟩
    simp only [div_pow]
    rw [← add_div, ← add_div, ← h2, div_self (pow_ne_zero 2 h)]

/-! ## C55 -/

/-- The line of a connection, by the two seeds of its face. -/
structure ConnOK (xs : List SeedRec) (M : VMesh) (file : VcgFile) (g : MeshFace) (c : VcgConn) : Prop where
  /-- The first number is that of the first seed, and a line of the section of cells has it, with the place of this seed. -/
  first : ∃ s l, xs[g.seed]? = some s ∧ c.a = placeInside xs g.seed + 1 ∧ file.cells[placeInside xs g.seed]? = some l ∧ l.id = c.a ∧ l.x = s.x
  /-- So for the second number if the second seed is inside. -/
  second : ∀ t, xs[g.nbr]? = some t → t.region ≠ 0 → c.b = placeInside xs g.nbr + 1 ∧ c.a ≠ c.b ∧ ∃ l, file.cells[placeInside xs g.nbr]? = some l ∧ l.id = c.b ∧ l.x = t.x
  /-- A ghost repeats the first number. -/
  ghost : ∀ t, xs[g.nbr]? = some t → t.region = 0 → c.b = c.a
  /-- The point is midway between the seeds. -/
  mid : ∀ s t, xs[g.seed]? = some s → xs[g.nbr]? = some t → euclid 3 c.mid s.x = euclid 3 c.mid t.x ∧ ∀ d, c.mid d - s.x d = t.x d - c.mid d
  /-- The area is that of the polygon with the vertices of the face as corners. -/
  area : 0 ≤ c.area ∧ ∃ ps, List.Forall₂ (fun v p => M.vertices v = some p) g.verts ps ∧ c.area = polygonArea ps
  /-- The normal has unit length and points from the first seed to the second. -/
  normal : ∀ s t, xs[g.seed]? = some s → xs[g.nbr]? = some t → (c.normal = none ↔ euclid 3 s.x t.x = 0) ∧
    ∀ n, c.normal = some n → n 0 ^ 2 + n 1 ^ 2 + n 2 ^ 2 = 1 ∧ ∀ d, d < 3 → n d * euclid 3 s.x t.x = t.x d - s.x d

/-- **C55**: with a seed inside, the file lists exactly the seeds inside, numbered from 1 in their order, and every face of the mesh in its order as a connection of two listed cells, the same one twice at a ghost.  The volume of a
cell is the sum of the volumes of the pyramids over its faces, with the areas of the connections. -/
theorem C55_vcg_file (xs : List SeedRec) (M : VMesh) (cf : Nat → List Nat) (h : VcgOK xs M cf) (hin : ∃ s ∈ xs, s.region ≠ 0) :
    ∃ file, saveVcg xs M cf = some file ∧ file.cells.length = file.numCells ∧ file.numCells = xs.countP SeedRec.inside ∧ (∀ (k : Nat) (c : VcgCell), file.cells[k]? = some c → c.id = k + 1) ∧
      (∀ i s, xs[i]? = some s → s.region ≠ 0 → ∃ c, file.cells[placeInside xs i]? = some c ∧ c.x = s.x ∧ c.region = s.region ∧ 0 ≤ c.volume ∧
        ∃ v : Nat → ℝ, c.volume = ((cf i).map v).sum ∧ ∀ k ∈ cf i, ∃ g n p q, M.faces k = some g ∧ file.conns[k]? = some n ∧ xs[g.seed]? = some p ∧ xs[g.nbr]? = some q ∧ v k = n.area * (euclid 3 p.x q.x / 2) / 3) ∧
      file.conns.length = file.numConns ∧ file.numConns = M.nf ∧ ∀ k g c, M.faces k = some g → file.conns[k]? = some c → ConnOK xs M file g c := by
  haveI : Nonempty SeedRec := ⟨hin.choose⟩
  haveI : Nonempty MeshFace := ⟨⟨[], 0, 0⟩⟩
  choose! g a s t hg hs hr ht hne ha hah using fun k (hk : k < M.nf) => areaHeight_some h hk
  obtain ⟨hn, hix⟩ := vcgIndex_spec (n := xs.length) (xs := xs) xs.length (le_refl _)
  have hall : placeInside xs xs.length = xs.countP SeedRec.inside := by unfold placeInside; rw [List.take_length]
  obtain ⟨l, el, hl1, hl2⟩ := vcgCells_some (new := (vcgIndex xs.length xs xs.length).1) hah h.cells xs.length (le_refl _)
  have hlt : ∀ {i : Nat} {s : SeedRec}, xs[i]? = some s → i < xs.length := fun {i} {s} e => (List.getElem?_eq_some_iff.1 e).1
  have hpos : xs.countP SeedRec.inside ≠ 0 := by
    rw [← Nat.pos_iff_ne_zero, List.countP_pos_iff]
    obtain ⟨s, h1, h2⟩ := hin
    exact ⟨s, h1, by simp [SeedRec.inside, h2]⟩
  have hcn : ∀ k, k < M.nf → vcgConn xs M (vcgIndex xs.length xs xs.length).1 k = some ⟨placeInside xs (g k).seed + 1, if (t k).region ≠ 0 then (vcgIndex xs.length xs xs.length).1 (g k).nbr + 1 else placeInside xs (g k).seed + 1,
      fun d => 0.5 * ((t k).x d + (s k).x d), a k, unitNormal (s k).x (t k).x⟩ := by
    intro k hk
    unfold vcgConn VMesh.face
    rw [if_pos hk, hg k hk, hah k hk]
    simp only
    rw [hs k hk, ht k hk]
    simp only
    rw [hix (g k).seed (s k) (hlt (hs k hk)) (hs k hk) (hr k hk)]
  have ec := vcgConns_some hcn M.nf (le_refl _)
  have hid : ∀ (i : Nat) (q : SeedRec), xs[i]? = some q → q.region ≠ 0 → l[placeInside xs i]? = some ⟨placeInside xs i + 1, q.x, ((cf i).map fun k => a k * (0.5 * euclid 3 (s k).x (t k).x) / 3).sum, q.region⟩ := by
    intro i q hq hqr
    rw [hl2 i q (hlt hq) hq hqr, hix i q (hlt hq) hq hqr]
  refine ⟨_, by unfold saveVcg; rw [el, ec]; simp only; rw [hn, hall, if_neg hpos], by rw [hl1, hall], rfl, ?_, ?_, by simp, rfl, ?_⟩
  · intro k c hc
    have hk : k < l.length := (List.getElem?_eq_some_iff.1 hc).1
    rw [hl1] at hk
    have hex : ∀ m, m ≤ xs.length → k < placeInside xs m → ∃ i q, xs[i]? = some q ∧ q.region ≠ 0 ∧ placeInside xs i = k := by
      intro m
      induction m with
      | zero => intro _ h0; simp [placeInside] at h0
      | succ m ih =>
        intro hm h0
        have hq := List.getElem?_eq_getElem (show m < xs.length by omega)
        rw [placeInside_succ hq] at h0
        by_cases hkm : k < placeInside xs m
        · exact ih (by omega) hkm
        · split_ifs at h0 with hz
          · omega
          · exact ⟨m, _, hq, hz, by omega⟩
    obtain ⟨i, q, hq, hqr, rfl⟩ := hex xs.length (le_refl _) hk
    have := hid i q hq hqr
    simp only at hc
    rw [this] at hc
    rw [← Option.some.inj hc]
  · intro i q hq hqr
    refine ⟨_, hid i q hq hqr, rfl, rfl, ?_, _, rfl, fun k hk => ?_⟩
    · refine List.sum_nonneg ?_
      intro v hv
      obtain ⟨k, hk, rfl⟩ := List.mem_map.1 hv
      have h1 := (ha k (h.cells i q hq hqr k hk)).1
      have h2 : 0 ≤ euclid 3 (s k).x (t k).x := Real.sqrt_nonneg _
      positivity
    · have hk' := h.cells i q hq hqr k hk
      refine ⟨g k, _, s k, t k, hg k hk', by simp only; rw [List.getElem?_map, List.getElem?_range hk']; rfl, hs k hk', ht k hk', ?_⟩
      simp only
      ring
  · intro k g' c hg' hc
    simp only at hc
    rw [List.getElem?_map] at hc
    obtain ⟨k', hk', rfl⟩ := Option.map_eq_some_iff.1 hc
    obtain ⟨hkn, e⟩ := List.getElem?_eq_some_iff.1 hk'
    rw [List.length_range] at hkn
    rw [List.getElem_range] at e
    subst e
    rw [hg k hkn] at hg'
    obtain rfl := Option.some.inj hg'
    refine ⟨⟨s k, _, hs k hkn, rfl, hid _ _ (hs k hkn) (hr k hkn), rfl, rfl⟩, ?_, ?_, ?_, ha k hkn, ?_⟩
    · intro q hq hqr
      have htq : t k = q := by rw [ht k hkn] at hq; exact Option.some.inj hq
      have hb : (vcgIndex xs.length xs xs.length).1 (g k).nbr = placeInside xs (g k).nbr := hix _ _ (hlt hq) hq hqr
      simp only
      rw [htq, if_pos hqr, hb]
      refine ⟨rfl, ?_, _, hid _ _ hq hqr, rfl, rfl⟩
      rcases Nat.lt_or_gt_of_ne (hne k hkn) with g1 | g1
      · have := placeInside_lt hq hqr g1
        omega
      · have := placeInside_lt (hs k hkn) (hr k hkn) g1
        omega
    · intro q hq hqr
      have htq : t k = q := by rw [ht k hkn] at hq; exact Option.some.inj hq
      simp only
      rw [htq, if_neg (by simp [hqr])]
    · intro p q hp hq
      rw [hs k hkn] at hp
      rw [ht k hkn] at hq
      obtain rfl := Option.some.inj hp
      obtain rfl := Option.some.inj hq
      constructor
      · rw [← sqrt_distSq3, ← sqrt_distSq3]
        unfold distSq3
        congr 1
        ring
      · intro d
        simp only
        ring
    · intro p q hp hq
      rw [hs k hkn] at hp
      rw [ht k hkn] at hq
      obtain rfl := Option.some.inj hp
      obtain rfl := Option.some.inj hq
      exact unitNormal_spec _ _

/-- **C55**: with no seed inside, the writer divides by zero. -/
theorem C55_no_cells_undefined (xs : List SeedRec) (M : VMesh) (cf : Nat → List Nat) (hin : ∀ s ∈ xs, s.region = 0) : saveVcg xs M cf = none := by
  obtain ⟨hn, -⟩ := vcgIndex_spec (n := xs.length) (xs := xs) xs.length (le_refl _)
  have h0 : placeInside xs xs.length = 0 := by
    unfold placeInside
    rw [List.take_length, List.countP_eq_zero]
    intro s hs
    simp [SeedRec.inside, hin s hs]
  unfold saveVcg
  rw [hn, h0]
  split
  · exact if_pos rfl
  · rfl

/-! ## From the seeds to the file -/

/-- **C55** after C53, C54 and C56: from cells of seeds, one of them inside, the mesh, the lists of faces of the cells and the file come about without undefined behaviour; the file has one line for each seed inside and one for each face.
The regions of the seeds may be renumbered between mesh and file, `ys` for `xs`, as long as the ghosts stay the ghosts. -/
theorem C55_from_cells (xs ys : List SeedRec) (hsize : ∀ s ∈ xs, 0 ≤ s.size) (T : MTree) (hT : meshTree xs.length xs = some T) (fuel' fuel : Nat) (C : Cells) (hC : meshCells T xs fuel' fuel xs.length 0 (fun _ => none) = some (some C))
    (hlen : ys.length = xs.length) (hys : ∀ (i : Nat) (s t : SeedRec), xs[i]? = some s → ys[i]? = some t → t.x = s.x ∧ (t.region = 0 ↔ s.region = 0)) (hin : ∃ s ∈ ys, s.region ≠ 0) :
    ∃ F, ∀ f, F ≤ f → ∃ M cf k m file, meshOfCells xs C f = some (some M) ∧ cellFaces ys.length (regionAt ys) M.pairs = some (cf, k, m) ∧ VcgOK ys M (listOf cf k) ∧ saveVcg ys M (listOf cf k) = some file ∧
      file.cells.length = ys.countP SeedRec.inside ∧ file.conns.length = M.nf ∧ ∀ k g c, M.faces k = some g → file.conns[k]? = some c → ConnOK ys M file g c := by
  obtain ⟨F, hF⟩ := C54_faces xs hsize T hT fuel' fuel C hC
  refine ⟨F, fun f hf => ?_⟩
  obtain ⟨M, eM, hM, -⟩ := hF f hf
  have hpair : ∀ (j : Nat), j < M.nf → ∃ g, M.faces j = some g ∧ M.pairs[j]? = some (g.seed, g.nbr) ∧ (∃ s, ys[g.seed]? = some s ∧ s.region ≠ 0) ∧ g.nbr < ys.length ∧ g.nbr ≠ g.seed ∧ ∀ v ∈ g.verts, v < M.nv ∧ ∃ p, M.vertices v = some p := by
    intro j hj
    obtain ⟨g, e, -, -, ⟨s, hs, hr⟩, h1, h2, h3, -⟩ := hM j hj
    have hlt : g.seed < ys.length := by rw [hlen]; exact (List.getElem?_eq_some_iff.1 hs).1
    refine ⟨g, e, ?_, ⟨ys[g.seed], List.getElem?_eq_getElem hlt, fun h0 => hr (((hys _ _ _ hs (List.getElem?_eq_getElem hlt)).2).1 h0)⟩, by rw [hlen]; exact h1, h2, fun v hv => ?_⟩
    · unfold VMesh.pairs
      rw [List.getElem?_map, List.getElem?_range hj]
      simp [e]
    · obtain ⟨hv1, c, s, k, q, -, -, -, hv2⟩ := h3 v hv
      exact ⟨hv1, q.x, hv2⟩
  have hpl : M.pairs.length = M.nf := by simp [VMesh.pairs]
  have hmem : ∀ p ∈ M.pairs, p.1 < ys.length ∧ p.2 < ys.length ∧ p.1 ≠ p.2 := by
    intro p hp
    obtain ⟨j, hj⟩ := List.mem_iff_getElem?.1 hp
    have hjl : j < M.nf := by rw [← hpl]; exact (List.getElem?_eq_some_iff.1 hj).1
    obtain ⟨g, -, e, ⟨s, hs, -⟩, h1, h2, -⟩ := hpair j hjl
    rw [e] at hj
    obtain rfl := Option.some.inj hj
    exact ⟨(List.getElem?_eq_some_iff.1 hs).1, h1, h2.symm⟩
  obtain ⟨cf, k, m, ecf, hcf, -, -⟩ := C56_cell_faces_transpose ys.length (regionAt ys) M.pairs (fun p hp => ⟨(hmem p hp).1, (hmem p hp).2.1⟩) (fun p hp => (hmem p hp).2.2)
  have hok : VcgOK ys M (listOf cf k) := by
    refine ⟨fun j hj => ?_, fun i s hs hr j hj => ?_⟩
    · obtain ⟨g, e, -, h1, h2, h3, h4⟩ := hpair j hj
      exact ⟨g, e, h1, h2, h3, h4⟩
    · obtain ⟨l, el, -, h1⟩ := hcf i (List.getElem?_eq_some_iff.1 hs).1 (by unfold regionAt; rw [hs]; exact hr)
      unfold listOf at hj
      rw [el] at hj
      simp only at hj
      rw [h1] at hj
      have := List.mem_range.1 (List.mem_filter.1 hj).1
      rwa [hpl] at this
  obtain ⟨file, e1, e2, e3, -, -, e4, e5, e6⟩ := C55_vcg_file ys M (listOf cf k) hok hin
  exact ⟨M, cf, k, m, file, eM, ecf, hok, e1, by rw [e2, e3], by rw [e4, e5], e6⟩

namespace CellRun

/-- Two cells side by side and a ghost: three corners of the face between the cells, the face towards the ghost. -/
def twoCells : List SeedRec := [⟨fun d => if d = 0 then -1 else 0, 1, 2⟩, ⟨fun d => if d = 0 then 3 else 0, 1, 0⟩, ⟨fun d => if d = 0 then 1 else 0, 1, 1⟩]

/-- Their mesh. -/
def twoMesh : VMesh := ⟨6, fun v => some fun d => if d = 0 then (if v < 3 then 0 else 2) else if d = 1 then (if v % 3 = 1 then 1 else 0) else (if v % 3 = 2 then 1 else 0), 2,
  fun k => if k = 0 then some ⟨[0, 1, 2], 0, 2⟩ else if k = 1 then some ⟨[3, 4, 5], 2, 1⟩ else none⟩

/-- The hypotheses of `C55_vcg_file` hold for two cells and a ghost. -/
example : VcgOK twoCells twoMesh (fun i => if i = 0 then [0] else [0, 1]) ∧ ∃ s ∈ twoCells, s.region ≠ 0 := by
  refine ⟨⟨fun k hk => ?_, fun i s hs hr k hk => ?_⟩, ⟨_, List.mem_cons_self, by norm_num⟩⟩
  · have : k = 0 ∨ k = 1 := by simp only [twoMesh] at hk; omega
    rcases this with rfl | rfl
    · exact ⟨⟨[0, 1, 2], 0, 2⟩, rfl, ⟨_, rfl, by norm_num⟩, by decide, by decide, fun v hv => ⟨by simp only [twoMesh]; simp at hv; omega, _, rfl⟩⟩
    · exact ⟨⟨[3, 4, 5], 2, 1⟩, rfl, ⟨_, rfl, by norm_num⟩, by decide, by decide, fun v hv => ⟨by simp only [twoMesh]; simp at hv; omega, _, rfl⟩⟩
  · simp only [twoMesh]
    split_ifs at hk <;> simp at hk <;> omega

/-- The cell of the second seed inside is number 2 and the face towards the ghost is written with the number 2 twice. -/
example : ∃ file c, saveVcg twoCells twoMesh (fun i => if i = 0 then [0] else [0, 1]) = some file ∧ file.numCells = 2 ∧ file.conns[1]? = some c ∧ c.a = 2 ∧ c.b = 2 ∧ c.area = 1 / 2 := by
  refine ⟨_, _, rfl, rfl, rfl, rfl, rfl, ?_⟩
  norm_num [fanArea, faceArea, twoMesh, length3, crossAt]

end CellRun

end VoroCrust
