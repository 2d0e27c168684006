import Verif.Model.InteriorRun
import Verif.Props.EdgeDelaunay
import Verif.Props.Front
import Verif.Props.Culling

/-!
# C98: the stages after the surface seeds
-/

namespace VoroCrust

/-! ## Lists of seeds that grow -/

/-- `out` is `seeds`, none of them larger, followed by others: outside all surface spheres, of a region of `seeds` other than the outside; from number `k` on also outside all edge and corner spheres. -/
structure SeedsGrow (F : Features) (k : Nat) (seeds out : List SeedRec) : Prop where
  keep : ∀ (i : Nat) (a : SeedRec), seeds[i]? = some a → ∃ b, out[i]? = some b ∧ b.x = a.x ∧ b.region = a.region ∧ b.size ≤ a.size
  new : ∀ (i : Nat) (b : SeedRec), seeds.length ≤ i → out[i]? = some b → b.region ≠ 0 ∧ OutsideOf b.x F.surface ∧ ∃ a ∈ seeds, a.region = b.region
  free : ∀ (i : Nat) (b : SeedRec), seeds.length ≤ i → k ≤ i → out[i]? = some b → OutsideOf b.x F.edges ∧ OutsideOf b.x F.corners

theorem SeedsGrow.length {F : Features} {k : Nat} {seeds out : List SeedRec} (h : SeedsGrow F k seeds out) : seeds.length ≤ out.length := by
  by_contra hc
  push Not at hc
  obtain ⟨b, hb, -⟩ := h.keep out.length _ (List.getElem?_eq_getElem hc)
  simp at hb

theorem SeedsGrow.regions {F : Features} {k : Nat} {seeds out : List SeedRec} (h : SeedsGrow F k seeds out) : ∀ b ∈ out, ∃ a ∈ seeds, a.region = b.region := by
  intro b hb
  obtain ⟨i, hi⟩ := List.getElem?_of_mem hb
  by_cases hl : seeds.length ≤ i
  · exact (h.new i b hl hi).2.2
  · push Not at hl
    obtain ⟨b', hb', -, hr, -⟩ := h.keep i _ (List.getElem?_eq_getElem hl)
    obtain rfl := Option.some.inj (hi.symm.trans hb')
    exact ⟨_, List.getElem_mem hl, hr.symm⟩

theorem SeedsGrow.trans {F : Features} {k : Nat} {a b c : List SeedRec} (h : SeedsGrow F k a b) (h' : SeedsGrow F k b c) : SeedsGrow F k a c := by
  have hl := h.length
  refine ⟨fun i x hx => ?_, fun i z hi hz => ?_, fun i z hi hk hz => ?_⟩
  · obtain ⟨y, hy, y1, y2, y3⟩ := h.keep i x hx
    obtain ⟨z, hz, z1, z2, z3⟩ := h'.keep i y hy
    exact ⟨z, hz, z1.trans y1, z2.trans y2, z3.trans y3⟩
  · by_cases hb : b.length ≤ i
    · obtain ⟨h1, h2, y, hy, hr⟩ := h'.new i z hb hz
      obtain ⟨x, hx, hx2⟩ := h.regions y hy
      exact ⟨h1, h2, x, hx, hx2.trans hr⟩
    · push Not at hb
      obtain ⟨z', hz', z1, z2, -⟩ := h'.keep i _ (List.getElem?_eq_getElem hb)
      obtain rfl := Option.some.inj (hz.symm.trans hz')
      rw [z1, z2]
      exact h.new i _ hi (List.getElem?_eq_getElem hb)
  · by_cases hb : b.length ≤ i
    · exact h'.free i z hb hk hz
    · push Not at hb
      obtain ⟨z', hz', z1, -, -⟩ := h'.keep i _ (List.getElem?_eq_getElem hb)
      obtain rfl := Option.some.inj (hz.symm.trans hz')
      rw [z1]
      exact h.free i _ hi hk (List.getElem?_eq_getElem hb)

theorem SeedsGrow.refl (F : Features) (k : Nat) (seeds : List SeedRec) : SeedsGrow F k seeds seeds :=
  ⟨fun _ a h => ⟨a, h, rfl, rfl, le_refl _⟩, fun i b hi hb => by simp [hi] at hb, fun i b hi _ hb => by simp [hi] at hb⟩

/-! ## The stages -/

theorem getElem?_flatMap_le {os : List (Option SeedRec × Option SeedRec)} : (os.flatMap fun p => p.1.toList ++ p.2.toList).length ≤ 2 * os.length := by
  induction os with
  | nil => simp
  | cons p os ih =>
    obtain ⟨a, b⟩ := p
    simp only [List.flatMap_cons, List.length_append, List.length_cons]
    have h1 : a.toList.length ≤ 1 := by cases a <;> simp
    have h2 : b.toList.length ≤ 1 := by cases b <;> simp
    omega

/-- The seeds on the sharp edges. -/
theorem edgeStage_grows {seeds : List SeedRec} {F : Features} {L : ℝ} (hF : F.OK L) (hc : F.corners.length ≤ F.surface.length) (hz : F.sizing.length ≤ F.surface.length) (hne : seeds ≠ [])
    (h0 : ∀ a ∈ seeds, 0 ≤ a.size) (hE : EdgesOK F) {vs : Nat → Bool → List (Nat → ℝ)} {ys : Nat → Bool → List (ℝ × ℝ)} (hd : AllDrawsOK F vs ys) :
    ∃ (crit : List SeedRec) (N : Nat), (∀ fuel, N ≤ fuel → ensureDelaunay seeds F L fuel vs ys = some crit) ∧ SeedsGrow F crit.length seeds crit ∧
      crit.length ≤ seeds.length + 2 * F.edges.length ∧ ∀ a ∈ crit, 0 ≤ a.size := by
  obtain ⟨xs, os, N, h1, h2, h3, h4, h5⟩ := C87_edge_seeds_partial seeds F L hF hc hz hne h0 hE vs ys hd
  refine ⟨_, N, h1, ⟨fun i a ha => ?_, fun i b hi hb => ?_, fun i b hi hk hb => ?_⟩, ?_, fun b hb => ?_⟩
  · have hi : i < xs.length := by rw [h2]; exact (List.getElem?_eq_some_iff.1 ha).1
    obtain ⟨x1, x2, x3, -⟩ := h3 i a _ ha (List.getElem?_eq_getElem hi)
    exact ⟨xs[i], by rw [List.getElem?_append_left hi, List.getElem?_eq_getElem hi], x1, x2, x3⟩
  · rw [List.getElem?_append_right (by omega)] at hb
    obtain ⟨p, hp, hbp⟩ := List.mem_flatMap.1 (List.mem_of_getElem? hb)
    obtain ⟨j, hj⟩ := List.getElem?_of_mem hp
    have hjl : j < F.edges.length := by rw [← h4]; exact (List.getElem?_eq_some_iff.1 hj).1
    obtain ⟨n, m, -, o1, -, o2⟩ := h5 j _ p (List.getElem?_eq_getElem hjl) hj
    have key : ∀ {s n : SeedRec} {ys : List (ℝ × ℝ)} {o : Option SeedRec}, CircleOutcome xs F s n ys o → b ∈ o.toList → b.region ≠ 0 ∧ OutsideOf b.x F.surface ∧ ∃ a ∈ seeds, a.region = b.region := by
      rintro s n ys o ⟨c, r, e1, e2, -, ⟨a, rfl, -, -, -, ho, -, ⟨q, hq, hr, hr0, -⟩, -⟩ | ⟨rfl, -⟩⟩ hb
      · simp only [Option.toList_some, List.mem_singleton] at hb
        subst hb
        obtain ⟨t, ht⟩ := List.getElem?_of_mem hq.1
        have htl : t < seeds.length := by rw [← h2]; exact (List.getElem?_eq_some_iff.1 ht).1
        obtain ⟨-, hreg, -⟩ := h3 t _ q (List.getElem?_eq_getElem htl) ht
        exact ⟨by rw [hr]; exact hr0, ho, _, List.getElem_mem htl, by rw [hr, hreg]⟩
      · simp at hb
    rcases List.mem_append.1 hbp with hb | hb
    · exact key o1 hb
    · exact key o2 hb
  · have := (List.getElem?_eq_some_iff.1 hb).1
    omega
  · have := getElem?_flatMap_le (os := os)
    rw [List.length_append, h2]
    omega
  · rcases List.mem_append.1 hb with hb | hb
    · obtain ⟨i, hi⟩ := List.getElem?_of_mem hb
      have hil : i < seeds.length := by rw [← h2]; exact (List.getElem?_eq_some_iff.1 hi).1
      obtain ⟨-, -, -, c, hc', hcb⟩ := h3 i _ b (List.getElem?_eq_getElem hil) hi
      have h5 := h0 c hc'
      have h6 := mul_nonneg hF.L0 (euclid_nonneg 3 seeds[i].x c.x)
      linarith
    · obtain ⟨p, hp, hbp⟩ := List.mem_flatMap.1 hb
      obtain ⟨j, hj⟩ := List.getElem?_of_mem hp
      have hjl : j < F.edges.length := by rw [← h4]; exact (List.getElem?_eq_some_iff.1 hj).1
      obtain ⟨n, m, -, o1, -, o2⟩ := h5 j _ p (List.getElem?_eq_getElem hjl) hj
      have key : ∀ {s n : SeedRec} {ys : List (ℝ × ℝ)} {o : Option SeedRec}, CircleOutcome xs F s n ys o → b ∈ o.toList → 0 ≤ b.size := by
        rintro s n ys o ⟨c, r, e1, e2, hC, ⟨a, rfl, hr, -⟩ | ⟨rfl, -⟩⟩ hb
        · simp only [Option.toList_some, List.mem_singleton] at hb
          subst hb
          rw [hr]
          exact hC.radius
        · simp at hb
      rcases List.mem_append.1 hbp with hb | hb
      · exact key o1 hb
      · exact key o2 hb

/-- The seeds after imposing points, when the stage stays inside its arrays. -/
theorem imposeStage_spec {seeds out : List SeedRec} {F : Features} {L : ℝ} {imposed : Option (List (Nat → ℝ))} {D : RunDraws} (hne : seeds ≠ []) (hF : F.OK L) (hlen : F.corners.length ≤ F.surface.length ∧ F.sizing.length ≤ F.surface.length) {m : Nat}
    (hD : ∀ pts, imposed = some pts → (runCounter D.sched ⟨0, fun _ => none, D.split⟩).Done ∧ ∀ vs, List.Forall₂ (ImposedVerdict seeds F) pts vs → Splits m (acceptedCount vs) D.split)
    (hp : ∀ pts, imposed = some pts → ∀ x ∈ pts, 0 ≤ x 3) (h : imposeStage seeds F L imposed D = some out) :
    SeedsGrow F seeds.length seeds out ∧ ((∀ a ∈ seeds, 0 ≤ a.size) → ∀ a ∈ out, 0 ≤ a.size) ∧
      ∀ pts, imposed = some pts → out.length ≤ seeds.length + pts.length ∧ ∀ (i : Nat) (b : SeedRec), seeds.length ≤ i → out[i]? = some b → b.x ∈ pts := by
  cases imposed with
  | none =>
    obtain rfl := Option.some.inj h
    exact ⟨SeedsGrow.refl _ _ _, fun h => h, by simp⟩
  | some pts =>
    obtain ⟨hd, hs⟩ := hD pts rfl
    obtain ⟨new, rfl, h1, -⟩ := C72_imposed_seeds seeds F L pts hne hF m D.split D.sched hd hs h
    have hmem : ∀ (i : Nat) (b : SeedRec), seeds.length ≤ i → (seeds ++ new)[i]? = some b → b ∈ new := by
      intro i b hi hb
      rw [List.getElem?_append_right hi] at hb
      exact List.mem_of_getElem? hb
    have hlen : new.length ≤ pts.length := by
      obtain ⟨vs, hv, h2, -⟩ := C48_counter_partial seeds F L pts hne hF hlen.1 hlen.2
      obtain ⟨-, -, h3⟩ := h2 m D.split D.sched (hs vs hv) hd
      change imposeSeeds seeds F L pts D.split D.sched = _ at h
      rw [h] at h3
      split at h3
      · have h4 := List.append_cancel_left (Option.some.inj h3)
        rw [h4, acceptedRecs_length hv.length_eq, hv.length_eq]
        exact List.length_filter_le _ _
      · simp at h3
    refine ⟨⟨fun i a ha => ⟨a, ?_, rfl, rfl, le_refl _⟩, fun i b hi hb => ?_, fun i b hi _ hb => ?_⟩, fun h0 a ha => ?_, fun pts' hpts => ?_⟩
    · rw [List.getElem?_append_left (List.getElem?_eq_some_iff.1 ha).1, ha]
    · obtain ⟨-, -, h3, h4, -, -, s, hs, hr, -⟩ := h1 b (hmem i b hi hb)
      exact ⟨h3, h4, s, hs, hr⟩
    · obtain ⟨-, -, -, -, h5, h6, -⟩ := h1 b (hmem i b hi hb)
      exact ⟨h5, h6⟩
    · rcases List.mem_append.1 ha with ha | ha
      · exact h0 a ha
      · obtain ⟨hx, hsz, -⟩ := h1 a ha
        rw [hsz]
        exact hp pts rfl _ hx
    · obtain rfl := Option.some.inj hpts
      exact ⟨by rw [List.length_append]; omega, fun i b hi hb => (h1 b (hmem i b hi hb)).1⟩

/-- The interior seeds. -/
theorem frontStage {ρ : ℝ → ℝ} (hmono : Monotone ρ) (hρ : ∀ n : Nat, ρ (n : ℝ) = n) {F : Features} {L rmax : ℝ} (hF : F.OK L) (hsz : SizingOK F) (hmax : 0 ≤ rmax)
    (hc : F.corners.length ≤ F.surface.length) (hs : F.sizing.length ≤ F.surface.length) (threads : Nat) (inputs : List RoundInput) (hi : ∀ inp ∈ inputs, inp.OK) {seeds : List SeedRec}
    (h0 : ∀ a ∈ seeds, 0 ≤ a.size) (hin : ∃ a ∈ seeds, a.region ≠ 0) :
    ∃ r N, (∀ lf, N ≤ lf → generateInterior ρ F L rmax lf threads inputs seeds = some r) ∧ ∀ out, r = some out → SeedsGrow F seeds.length seeds out ∧ ∀ b ∈ out, 0 ≤ b.size := by
  obtain ⟨r, N, h1, h2⟩ := C50_interior_seeds hmono hρ F hF hsz hmax hc hs threads inputs hi seeds h0 hin
  refine ⟨r, N, h1, fun out ho => ?_⟩
  obtain ⟨k1, k2, k3⟩ := h2 out ho
  have hreg : ∀ (i : Nat) (b : SeedRec), out[i]? = some b → ∃ a ∈ seeds, a.region = b.region := by
    intro i
    induction i using Nat.strong_induction_on with
    | _ i ih =>
      intro b hb
      by_cases hl : seeds.length ≤ i
      · obtain ⟨-, -, -, j, c, hj, hc, hr⟩ := k3 i b hl hb
        obtain ⟨a, ha, ha2⟩ := ih j hj c hc
        exact ⟨a, ha, ha2.trans hr⟩
      · push Not at hl
        obtain ⟨b', hb', -, hr, -⟩ := k1 i _ (List.getElem?_eq_getElem hl)
        obtain rfl := Option.some.inj (hb.symm.trans hb')
        exact ⟨_, List.getElem_mem hl, hr.symm⟩
  have hout : ∀ (i : Nat) (b : SeedRec), seeds.length ≤ i → out[i]? = some b → OutsideOf b.x F.surface ∧ OutsideOf b.x F.edges ∧ OutsideOf b.x F.corners := by
    intro i b hl hb
    obtain ⟨-, -, hq, -⟩ := k3 i b hl hb
    refine ⟨fun q hm => ?_, fun q hm => ?_, fun q hm => ?_⟩
    · have := hq q (.inl hm); linarith
    · have := hq q (.inr (.inl hm)); linarith
    · have := hq q (.inr (.inr hm)); linarith
  exact ⟨⟨k1, fun i b hl hb => ⟨(k3 i b hl hb).1, (hout i b hl hb).1, hreg i b hb⟩, fun i b hl _ hb => (hout i b hl hb).2⟩, fun b hb => (k2 b hb).1⟩

/-! ## Removed seeds -/

theorem keepFrom_split (keep : Nat → Bool) (xs : List SeedRec) (i p : Nat) (h : ∀ j, j < p → keep j = true) (hi : i ≤ p) :
    (((xs.zipIdx i).filter fun q => keep q.2).map Prod.fst) = xs.take (p - i) ++ (((xs.drop (p - i)).zipIdx p).filter fun q => keep q.2).map Prod.fst := by
  induction xs generalizing i with
  | nil => simp
  | cons a xs ih =>
    by_cases hp : i = p
    · subst hp
      simp
    · have hlt : i < p := by omega
      have e : p - i = (p - (i + 1)) + 1 := by omega
      rw [e, List.take_succ_cons, List.drop_succ_cons, List.zipIdx_cons, List.filter_cons_of_pos (by simp [h i hlt]), List.map_cons, ih (i + 1) (by omega)]
      rfl

theorem keepSeeds_split (keep : Nat → Bool) (xs : List SeedRec) (p : Nat) (h : ∀ j, j < p → keep j = true) :
    keepSeeds keep xs = xs.take p ++ (((xs.drop p).zipIdx p).filter fun q => keep q.2).map Prod.fst := by
  have := keepFrom_split keep xs 0 p h (Nat.zero_le _)
  simpa [keepSeeds] using this

/-- The first `p` seeds stay where they are; a later one comes from a later place and is kept there. -/
theorem keepSeeds_get (keep : Nat → Bool) (xs : List SeedRec) (p : Nat) (hp : p ≤ xs.length) (h : ∀ j, j < p → keep j = true) :
    (∀ i, i < p → (keepSeeds keep xs)[i]? = xs[i]?) ∧ ∀ (i : Nat) (b : SeedRec), p ≤ i → (keepSeeds keep xs)[i]? = some b → ∃ j, p ≤ j ∧ keep j = true ∧ xs[j]? = some b := by
  rw [keepSeeds_split keep xs p h]
  have hl : (xs.take p).length = p := by simp [hp]
  refine ⟨fun i hi => ?_, fun i b hi hb => ?_⟩
  · rw [List.getElem?_append_left (by omega), List.getElem?_take_of_lt hi]
  · rw [List.getElem?_append_right (by omega)] at hb
    obtain ⟨⟨b', j⟩, hm, rfl⟩ := List.mem_map.1 (List.mem_of_getElem? hb)
    obtain ⟨hm, hk⟩ := List.mem_filter.1 hm
    obtain ⟨h1, -, h2⟩ := List.mem_zipIdx hm
    have hjl : j - p < (xs.drop p).length := by
      have := List.mem_zipIdx hm
      omega
    refine ⟨j, h1, hk, ?_⟩
    rw [h2, List.getElem?_eq_getElem (by simp at hjl; omega), List.getElem_drop]
    congr 2
    omega

/-! ## The whole run -/

/-- What is assumed of the schedule of the threads that check imposed points: every thread finishes, and together they have the accepted points. -/
def ImposeOK (F : Features) (L : ℝ) (seeds : List SeedRec) (imposed : Option (List (Nat → ℝ))) (D : RunDraws) : Prop :=
  ∀ pts, imposed = some pts → (∀ x ∈ pts, 0 ≤ x 3) ∧ (runCounter D.sched ⟨0, fun _ => none, D.split⟩).Done ∧
    ∃ m, ∀ crit N, (∀ fuel, N ≤ fuel → ensureDelaunay seeds F L fuel D.vs D.ys = some crit) → ∀ vs, List.Forall₂ (ImposedVerdict crit F) pts vs → Splits m (acceptedCount vs) D.split

theorem finish_imposed {ρ : ℝ → ℝ} {n crit m : Nat} {pts : List (Nat → ℝ)} {generate : Bool} {us : Nat → ℝ} {seeds : List SeedRec} (hne : seeds ≠ []) (hp : ∀ x ∈ pts, 0 ≤ x 3) :
    ∃ r, finishSeeds ρ n crit m (some pts) generate us seeds = some r ∧ r.points = [] ∧
      (∀ (i : Nat) (a : SeedRec), i < crit + (m - n) → seeds[i]? = some a → ∃ b, r.seeds[i]? = some b ∧ b.x = a.x ∧ b.region = a.region ∧
        (b.size = a.size ∨ ∃ x ∈ pts, b.size = x 3 ∧ euclid 3 x a.x < 1e-10)) ∧
      ∀ (i : Nat) (b : SeedRec), r.seeds[i]? = some b → ∃ (j : Nat) (a : SeedRec), seeds[j]? = some a ∧ b.x = a.x ∧ b.region = a.region ∧ (b.size = a.size ∨ ∃ x ∈ pts, b.size = x 3) ∧
        (i < crit + (m - n) → j = i) ∧ (crit + (m - n) ≤ i → crit + (m - n) ≤ j ∧ ∀ x ∈ pts, MatchedSeed seeds x → x 3 ≤ euclid 3 x b.x) := by
  obtain ⟨keep, ss, ps, e, h1, h2, -, h4, h5, -⟩ := C57_removal (crit + (m - n)) seeds pts hne hp
  have hk : ∀ j, j < min (crit + (m - n)) seeds.length → keep j = true := by
    intro j hj
    cases hkj : keep j with
    | true => rfl
    | false =>
      have := (h4 j _ (List.getElem?_eq_getElem (show j < seeds.length by omega)) hkj).1
      omega
  obtain ⟨g1, g2⟩ := keepSeeds_get keep ss (min (crit + (m - n)) seeds.length) (by omega) hk
  have hss : ∀ (j : Nat) (b : SeedRec), ss[j]? = some b → ∃ a, seeds[j]? = some a ∧ b.x = a.x ∧ b.region = a.region ∧ (b.size = a.size ∨ ∃ x ∈ pts, b.size = x 3 ∧ euclid 3 x a.x < 1e-10) := by
    intro j b hb
    have hj : j < seeds.length := by rw [← h1]; exact (List.getElem?_eq_some_iff.1 hb).1
    exact ⟨_, List.getElem?_eq_getElem hj, h2 j _ b (List.getElem?_eq_getElem hj) hb⟩
  have weak : ∀ {a b : SeedRec}, (b.size = a.size ∨ ∃ x ∈ pts, b.size = x 3 ∧ euclid 3 x a.x < 1e-10) → b.size = a.size ∨ ∃ x ∈ pts, b.size = x 3 := by
    rintro a b (h | ⟨x, hx, h, -⟩)
    · exact .inl h
    · exact .inr ⟨x, hx, h⟩
  refine ⟨⟨keepSeeds keep ss, ps, []⟩, ?_, rfl, fun i a hi ha => ?_, fun i b hb => ?_⟩
  · unfold finishSeeds
    simp only [e]
  · have hil := (List.getElem?_eq_some_iff.1 ha).1
    have hil' : i < ss.length := by omega
    refine ⟨ss[i], ?_, h2 i a _ ha (List.getElem?_eq_getElem hil')⟩
    simp only
    rw [g1 i (by omega), List.getElem?_eq_getElem hil']
  · simp only at hb
    by_cases hi : i < min (crit + (m - n)) seeds.length
    · rw [g1 i hi] at hb
      obtain ⟨a, ha, x1, x2, x3⟩ := hss i b hb
      exact ⟨i, a, ha, x1, x2, weak x3, fun _ => rfl, fun h => absurd h (by omega)⟩
    · push Not at hi
      obtain ⟨j, hj, hkj, hb⟩ := g2 i b hi hb
      obtain ⟨a, ha, x1, x2, x3⟩ := hss j b hb
      have hjl := (List.getElem?_eq_some_iff.1 ha).1
      have hpj : crit + (m - n) ≤ j := by omega
      refine ⟨j, a, ha, x1, x2, weak x3, fun h => absurd h (by omega), fun _ => ⟨hpj, fun x hx hm => ?_⟩⟩
      rw [x1]
      exact h5 j a ha hkj hpj x hx hm

theorem finish_generated {ρ : ℝ → ℝ} (hmono : Monotone ρ) (hρ : ∀ n : Nat, ρ (n : ℝ) = n) {n crit m : Nat} {generate : Bool} {us : Nat → ℝ} (hu : ∀ i, 0 ≤ us i ∧ us i ≤ 1) {seeds : List SeedRec}
    (hn : n ≤ seeds.length) :
    ∃ r, finishSeeds ρ n crit m none generate us seeds = some r ∧ r.seeds = seeds ∧ r.moved = [] ∧
      ∃ l : List Nat, List.Forall₂ (fun i p => seeds[i]? = some p) l r.points ∧ l.Nodup ∧ l.length = (if generate = true then min (seeds.length - n) 100 else 0) ∧ ∀ i ∈ l, n ≤ i := by
  cases generate with
  | false => exact ⟨⟨seeds, [], []⟩, rfl, rfl, rfl, [], .nil, List.nodup_nil, rfl, by simp⟩
  | true =>
    obtain ⟨l, ps, e, h1, h2, h3, h4⟩ := C58_monitoring_points_partial ρ hmono hρ n seeds ((List.range (seeds.length - n)).map us) hn (by simp) (by
      intro u hu'
      obtain ⟨i, -, rfl⟩ := List.mem_map.1 hu'
      exact hu i)
    exact ⟨⟨seeds, [], ps⟩, by unfold finishSeeds; simp only [e, if_true], rfl, rfl, l, h1, h2, by simpa using h3, fun i hi => (h4 i hi).1⟩

/-- **C98, what holds**: from the surface seeds to the seeds written at the end.  For all feature spheres and surface seeds as above, with or without imposed points, and for all random numbers: the run has no
undefined behaviour if no points are imposed.  Whenever it ends, the surface seeds come first, in order, at their positions and with their regions; no size has grown, unless a point is imposed there.
All further seeds are outside all surface spheres and have a region of a surface seed, not the outside; all but the first `k` of them, at most two per edge sphere, are outside the edge and corner
spheres too.  Generated monitoring points are up to 100 different ones of the further seeds.  With `m` points imposed, all seeds from number `n + 2 * k + m` on are outside the spheres of the imposed points that are seeds.
Missing: the seeds from `n + k + m` to `n + 2 * k + m`; the code counts the `k` edge seeds twice when it computes how many seeds are exempt. -/
theorem C98_interior_run_partial {ρ : ℝ → ℝ} (hmono : Monotone ρ) (hρ : ∀ n : Nat, ρ (n : ℝ) = n) {F : Features} {L rmax : ℝ} (hF : F.OK L) (hsz : SizingOK F) (hmax : 0 ≤ rmax)
    (hc : F.corners.length ≤ F.surface.length) (hz : F.sizing.length ≤ F.surface.length) (hE : EdgesOK F) (threads : Nat) (imposed : Option (List (Nat → ℝ))) (generate : Bool) (D : RunDraws)
    (hd : AllDrawsOK F D.vs D.ys) (hi : ∀ inp ∈ D.inputs, inp.OK) (hu : ∀ i, 0 ≤ D.us i ∧ D.us i ≤ 1) (seeds : List SeedRec) (h0 : ∀ a ∈ seeds, 0 ≤ a.size) (hin : ∃ a ∈ seeds, a.region ≠ 0)
    (hD : ImposeOK F L seeds imposed D) :
    ∃ N, ∀ lf, N ≤ lf → (imposed = none → interiorRun ρ F L rmax lf threads imposed generate D seeds ≠ none) ∧
      ∀ out, interiorRun ρ F L rmax lf threads imposed generate D seeds = some (some out) →
        (∀ (i : Nat) (a : SeedRec), seeds[i]? = some a → ∃ b, out.seeds[i]? = some b ∧ b.x = a.x ∧ b.region = a.region ∧
          (b.size ≤ a.size ∨ ∃ pts, imposed = some pts ∧ ∃ x ∈ pts, b.size = x 3 ∧ euclid 3 x a.x < 1e-10)) ∧
        (∀ b ∈ out.seeds, 0 ≤ b.size) ∧
        (∃ k m, k ≤ 2 * F.edges.length ∧ (∀ (i : Nat) (b : SeedRec), seeds.length ≤ i → out.seeds[i]? = some b → b.region ≠ 0 ∧ OutsideOf b.x F.surface ∧ (∃ a ∈ seeds, a.region = b.region) ∧
            (seeds.length + k ≤ i → OutsideOf b.x F.edges ∧ OutsideOf b.x F.corners)) ∧
          ∀ pts, imposed = some pts → m ≤ pts.length ∧ (∀ (i : Nat) (b : SeedRec), seeds.length + k ≤ i → i < seeds.length + k + m → out.seeds[i]? = some b → ∃ x ∈ pts, b.x = x) ∧
            ∀ (i : Nat) (b : SeedRec), seeds.length + 2 * k + m ≤ i → out.seeds[i]? = some b → ∀ x ∈ pts, MatchedSeed out.seeds x → x 3 ≤ euclid 3 x b.x) ∧
        ∃ l : List Nat, List.Forall₂ (fun i p => out.seeds[i]? = some p) l out.points ∧ l.Nodup ∧ (∀ i ∈ l, seeds.length ≤ i) ∧
          l.length = if imposed = none ∧ generate = true then min (out.seeds.length - seeds.length) 100 else 0 := by
  have hne : seeds ≠ [] := by rintro rfl; simp at hin
  obtain ⟨crit, N1, e1, x1, hk, hc0⟩ := edgeStage_grows hF hc hz hne h0 hE hd
  have hl1 := x1.length
  have hcne : crit ≠ [] := by
    rintro rfl
    have := List.length_pos_iff.2 hne
    simp only [List.length_nil] at hl1
    omega
  cases e2 : imposeStage crit F L imposed D with
  | none =>
    refine ⟨N1, fun lf hf => ⟨?_, fun out ho => ?_⟩⟩
    · rintro rfl
      simp [imposeStage] at e2
    · unfold interiorRun at ho
      simp only [e1 lf hf, e2] at ho
      simp at ho
  | some all =>
    have hstage : ∃ m, ∀ pts, imposed = some pts → (runCounter D.sched ⟨0, fun _ => none, D.split⟩).Done ∧ ∀ vs, List.Forall₂ (ImposedVerdict crit F) pts vs → Splits m (acceptedCount vs) D.split := by
      cases imposed with
      | none => exact ⟨0, by simp⟩
      | some pts =>
        obtain ⟨-, hdone, m, hm⟩ := hD pts rfl
        refine ⟨m, fun pts' hp' => ?_⟩
        obtain rfl := Option.some.inj hp'
        exact ⟨hdone, hm crit N1 e1⟩
    obtain ⟨m, hm⟩ := hstage
    obtain ⟨x2, p2, y2⟩ := imposeStage_spec hcne hF ⟨hc, hz⟩ hm (fun pts hp => (hD pts hp).1) e2
    have hl2 := x2.length
    have hin2 : ∃ a ∈ all, a.region ≠ 0 := by
      obtain ⟨a, ha, ha0⟩ := hin
      obtain ⟨i, hi'⟩ := List.getElem?_of_mem ha
      obtain ⟨b, hb, -, hb2, -⟩ := x1.keep i a hi'
      obtain ⟨c, hc', -, hc2, -⟩ := x2.keep i b hb
      exact ⟨c, List.mem_of_getElem? hc', by rw [hc2, hb2]; exact ha0⟩
    obtain ⟨r, N3, e3, h3⟩ := frontStage hmono hρ hF hsz hmax hc hz threads D.inputs hi (p2 hc0) hin2
    cases r with
    | none =>
      refine ⟨max N1 N3, fun lf hf => ?_⟩
      have e : interiorRun ρ F L rmax lf threads imposed generate D seeds = some none := by
        unfold interiorRun
        simp only [e1 lf (by omega), e2, e3 lf (by omega)]
      rw [e]
      exact ⟨fun _ => by simp, by simp⟩
    | some s3 =>
      obtain ⟨x3, p3⟩ := h3 s3 rfl
      have hl3 := x3.length
      have x23 : SeedsGrow F crit.length crit s3 := x2.trans ⟨x3.keep, x3.new, fun i b hi' _ hb => x3.free i b hi' hi' hb⟩
      have x13 : SeedsGrow F crit.length seeds s3 := x1.trans x23
      have e : ∀ lf, max N1 N3 ≤ lf → interiorRun ρ F L rmax lf threads imposed generate D seeds = (finishSeeds ρ seeds.length crit.length all.length imposed generate D.us s3).map some := by
        intro lf hf
        unfold interiorRun
        simp only [e1 lf (by omega), e2, e3 lf (by omega)]
      have hne3 : s3 ≠ [] := by
        rintro rfl
        have := List.length_pos_iff.2 hne
        simp only [List.length_nil] at hl3
        omega
      cases imposed with
      | none =>
        obtain ⟨r, er, r1, -, l, q1, q2, q3, q4⟩ := finish_generated (crit := crit.length) (m := all.length) (generate := generate) hmono hρ hu (show seeds.length ≤ s3.length by omega)
        refine ⟨max N1 N3, fun lf hf => ⟨fun _ => by rw [e lf hf, er]; simp, fun out ho => ?_⟩⟩
        rw [e lf hf, er] at ho
        simp only [Option.map_some, Option.some.injEq] at ho
        subst ho
        rw [r1]
        refine ⟨fun i a ha => ?_, p3, ⟨crit.length - seeds.length, 0, by omega, fun i b hi' hb => ?_, by simp⟩, l, q1, q2, q4, by simpa using q3⟩
        · obtain ⟨b, hb, b1, b2, b3⟩ := x13.keep i a ha
          exact ⟨b, hb, b1, b2, .inl b3⟩
        · obtain ⟨b1, b2, b3⟩ := x13.new i b hi' hb
          exact ⟨b1, b2, b3, fun hk' => x13.free i b hi' (by omega) hb⟩
      | some pts =>
        obtain ⟨r, er, r1, r2, r3⟩ := finish_imposed (ρ := ρ) (n := seeds.length) (crit := crit.length) (m := all.length) (generate := generate) (us := D.us) hne3 (hD pts rfl).1
        obtain ⟨y2a, y2b⟩ := y2 pts rfl
        refine ⟨max N1 N3, fun lf hf => ⟨by simp, fun out ho => ?_⟩⟩
        rw [e lf hf, er] at ho
        simp only [Option.map_some, Option.some.injEq] at ho
        subst ho
        rw [r1]
        refine ⟨fun i a ha => ?_, fun b hb => ?_, ⟨crit.length - seeds.length, all.length - crit.length, by omega, fun i b hi' hb => ?_, fun pts' hpts => ?_⟩, [], .nil, List.nodup_nil, by simp, by simp⟩
        · obtain ⟨b, hb, b1, b2, b3⟩ := x13.keep i a ha
          have hil := (List.getElem?_eq_some_iff.1 ha).1
          obtain ⟨c, hc', c1, c2, c3⟩ := r2 i b (by omega) hb
          refine ⟨c, hc', c1.trans b1, c2.trans b2, ?_⟩
          rcases c3 with c3 | ⟨x, hx, c3, c4⟩
          · exact .inl (by rw [c3]; exact b3)
          · exact .inr ⟨pts, rfl, x, hx, c3, by rw [← b1]; exact c4⟩
        · obtain ⟨i, hi'⟩ := List.getElem?_of_mem hb
          obtain ⟨j, a, ha, -, -, c3, -⟩ := r3 i b hi'
          rcases c3 with c3 | ⟨x, hx, c3⟩
          · rw [c3]; exact p3 a (List.mem_of_getElem? ha)
          · rw [c3]; exact (hD pts rfl).1 x hx
        · obtain ⟨j, a, ha, c1, c2, -, c4, c5⟩ := r3 i b hb
          have hj : crit.length ≤ i → crit.length ≤ j := by
            intro hci
            by_cases hlt : i < crit.length + (all.length - seeds.length)
            · rw [c4 hlt]; exact hci
            · have := (c5 (by omega)).1
              omega
          have hj' : seeds.length ≤ j := by
            by_cases hlt : i < crit.length + (all.length - seeds.length)
            · rw [c4 hlt]; exact hi'
            · have := (c5 (by omega)).1
              omega
          obtain ⟨b1, b2, b3⟩ := x13.new j a hj' ha
          rw [c1, c2]
          exact ⟨b1, b2, b3, fun hk' => x13.free j a hj' (hj (by omega)) ha⟩
        · obtain rfl := Option.some.inj hpts
          refine ⟨by omega, fun i b hi1 hi2 hb => ?_, fun i b hi1 hb x hx hmx => ?_⟩
          · obtain ⟨j, a, ha, c1, -, -, c4, -⟩ := r3 i b hb
            obtain rfl := c4 (by omega)
            have hjall : j < all.length := by omega
            obtain ⟨a', ha', d1, -, -⟩ := x3.keep j _ (List.getElem?_eq_getElem hjall)
            obtain rfl := Option.some.inj (ha.symm.trans ha')
            exact ⟨_, y2b j _ (by omega) (List.getElem?_eq_getElem hjall), by rw [c1, d1]⟩
          · obtain ⟨j, a, ha, -, -, -, -, c5⟩ := r3 i b hb
            refine (c5 (by omega)).2 x hx ?_
            obtain ⟨q, hq, hqx⟩ := hmx
            obtain ⟨t, ht⟩ := List.getElem?_of_mem hq
            obtain ⟨j', a', ha', d1, -⟩ := r3 t q ht
            exact ⟨a', List.mem_of_getElem? ha', by rw [← d1]; exact hqx⟩

end VoroCrust
