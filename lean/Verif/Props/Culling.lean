import Verif.Props.Imposed

/-!
# C57, C58, C73: removing seeds around imposed monitoring points, and generating monitoring points
-/

namespace VoroCrust

/-! ## Queries on the seeds in their own order -/

theorem closestStore_spec {xs : List SeedRec} {ln : Links} (h : RealTree (recStore xs) ln) (x : Nat → ℝ) :
    ∃ c s, closestQuery Rounding.exact (recStore xs) ln (fun _ => true) x false ⊤ = some (c, some (euclid 3 x s.x)) ∧ xs[c]? = some s ∧ ∀ q ∈ xs, euclid 3 x s.x ≤ euclid 3 x q.x := by
  obtain ⟨c, b, e, h1 | h1⟩ := C06_closest_is_exhaustive (recStore xs) ln h (fun _ => true) x false ⊤ le_top
  · obtain ⟨hc, -, hb, -, hmin⟩ := h1
    have hc' : c < xs.length := hc
    have hs := List.getElem?_eq_getElem hc'
    rw [recStore_pts hs] at hb
    have hb' : b = ((euclid 3 x (xs[c]).x : ℝ) : WithTop ℝ) := hb
    refine ⟨c, xs[c], by rw [e, hb']; rfl, hs, fun q hq => ?_⟩
    obtain ⟨k, hk, rfl⟩ := List.mem_iff_getElem.1 hq
    have := hmin k hk rfl
    rw [recStore_pts hs, recStore_pts (List.getElem?_eq_getElem hk)] at this
    exact this
  · exact absurd (h1.2.2 0 h.num_pos rfl) (by simp)

theorem nearStore_spec {xs : List SeedRec} {ln : Links} (h : RealTree (recStore xs) ln) (x : Nat → ℝ) {R : ℝ} (hR : 0 ≤ R) :
    ∃ l, sphereQuery Rounding.exact (recStore xs) ln (fun _ => true) (inSphereTest R) x R = some l ∧ (∀ i ∈ l, ∃ s, xs[i]? = some s ∧ euclidSq 3 x s.x < (1 + 2e-6) * R ^ 2) ∧
      ∀ i s, xs[i]? = some s → euclid 3 x s.x < R → i ∈ l := by
  obtain ⟨l, e, -, h2, h3⟩ := C08_in_sphere_sound_complete (recStore xs) ln h (fun _ => true) x R hR
  refine ⟨l, e, fun i hi => ?_, fun i s hs hd => ?_⟩
  · obtain ⟨q1, -, q2⟩ := h2 i hi
    have hc' : i < xs.length := q1
    rw [recStore_pts (List.getElem?_eq_getElem hc')] at q2
    exact ⟨xs[i], List.getElem?_eq_getElem hc', q2⟩
  · obtain ⟨hi, -⟩ := List.getElem?_eq_some_iff.1 hs
    exact h3 i hi rfl (by rw [recStore_pts hs]; exact hd)

/-! ## Counting -/

theorem countP_upd {l : List Nat} {i : Nat} (p : Nat → Bool) (hnd : l.Nodup) (hi : i ∈ l) (hp : p i = true) :
    l.countP (fun k => !(upd p i false) k) = l.countP (fun k => !p k) + 1 := by
  have aux : ∀ (l : List Nat), i ∉ l → l.countP (fun k => !(upd p i false) k) = l.countP (fun k => !p k) := by
    intro l hl
    refine List.countP_congr fun k hk => ?_
    have : k ≠ i := fun e => hl (e ▸ hk)
    simp [upd, this]
  induction l with
  | nil => simp at hi
  | cons a l ih =>
    rw [List.countP_cons, List.countP_cons]
    by_cases ha : a = i
    · subst ha
      rw [aux l (List.nodup_cons.1 hnd).1]
      simp [upd, hp]
    · have := ih (List.nodup_cons.1 hnd).2 (by simpa [Ne.symm ha] using hi)
      rw [this]
      simp only [upd, if_neg ha]
      omega

/-! ## C57 -/

/-- An imposed point that is a seed, up to `1e-10`. -/
def MatchedSeed (seeds : List SeedRec) (x : Nat → ℝ) : Prop := ∃ q ∈ seeds, euclid 3 x q.x < 1e-10

/-- Invariant of the loop over the imposed points; `pts` are those treated so far. -/
structure CullInv (prot : Nat) (seeds : List SeedRec) (pts : List (Nat → ℝ)) (s : Culling) : Prop where
  len : s.seeds.length = seeds.length
  same : ∀ (i : Nat) (a b : SeedRec), seeds[i]? = some a → s.seeds[i]? = some b → b.x = a.x ∧ b.region = a.region ∧ (b.size = a.size ∨ ∃ x ∈ pts, b.size = x 3 ∧ euclid 3 x a.x < 1e-10)
  sized : ∀ x ∈ pts, MatchedSeed seeds x → ∃ (i : Nat) (b : SeedRec), s.seeds[i]? = some b ∧ euclid 3 x b.x < 1e-10 ∧ ∃ y ∈ pts, b.size = y 3 ∧ euclid 3 y b.x < 1e-10
  gone : ∀ i, s.valid i = false → prot ≤ i ∧ ∃ (a : SeedRec) (x : Nat → ℝ), seeds[i]? = some a ∧ x ∈ pts ∧ MatchedSeed seeds x ∧ euclidSq 3 x a.x < (1 + 2e-6) * x 3 ^ 2
  kept : ∀ (i : Nat) (a : SeedRec), seeds[i]? = some a → s.valid i = true → prot ≤ i → ∀ x ∈ pts, MatchedSeed seeds x → x 3 ≤ euclid 3 x a.x
  count : s.removed = (List.range seeds.length).countP fun i => !s.valid i

theorem cullList_spec {n prot : Nat} (l : List Nat) (hl : ∀ i ∈ l, i < n) {s : Culling} (hc : s.removed = (List.range n).countP fun i => !s.valid i) :
    ∃ s', cullList n prot l s = some s' ∧ s'.seeds = s.seeds ∧ (∀ i, s'.valid i = false ↔ s.valid i = false ∨ (i ∈ l ∧ prot ≤ i)) ∧
      s'.removed = (List.range n).countP fun i => !s'.valid i := by
  induction l generalizing s with
  | nil => exact ⟨s, rfl, rfl, by simp, hc⟩
  | cons i l ih =>
    unfold cullList
    rw [if_pos (hl i (by simp))]
    split
    · rename_i h
      obtain ⟨s', e, h1, h2, h3⟩ := ih (fun j hj => hl j (by simp [hj])) (s := { s with valid := upd s.valid i false, removed := s.removed + 1 })
        (by simp only; rw [countP_upd s.valid List.nodup_range (List.mem_range.2 (hl i (by simp))) h.1, hc])
      refine ⟨s', e, h1, fun j => ?_, h3⟩
      rw [h2]
      by_cases hj : j = i
      · subst hj; simp [upd, h.2]
      · simp [upd, hj]
    · rename_i h
      obtain ⟨s', e, h1, h2, h3⟩ := ih (fun j hj => hl j (by simp [hj])) hc
      refine ⟨s', e, h1, fun j => ?_, h3⟩
      rw [h2]
      by_cases hj : j = i
      · subst hj
        simp only [List.mem_cons, true_or, true_and]
        constructor
        · rintro (h | h)
          · exact Or.inl h
          · exact Or.inr h.2
        · rintro (h' | h')
          · exact Or.inl h'
          · refine Or.inl ?_
            by_contra hv
            exact h ⟨by simpa using hv, h'⟩
      · simp [hj]

theorem cullOne_spec {prot : Nat} {seeds : List SeedRec} {ln : Links} (hT : RealTree (recStore seeds) ln) {pts : List (Nat → ℝ)} {s : Culling} (h : CullInv prot seeds pts s)
    {x : Nat → ℝ} (hx : 0 ≤ x 3) : ∃ s', cullOne (recStore seeds) ln prot x s = some s' ∧ CullInv prot seeds (x :: pts) s' := by
  obtain ⟨c, q, e, hq, hmin⟩ := closestStore_spec hT x
  have hqm := List.mem_of_getElem? hq
  unfold cullOne
  rw [e]
  simp only
  by_cases hm : euclid 3 x q.x < 1e-10
  · rw [if_pos hm]
    obtain ⟨l, el, hl1, hl2⟩ := nearStore_spec hT x hx
    have hcount : s.removed = (List.range (recStore seeds).num).countP fun i => !s.valid i := h.count
    obtain ⟨s', e', h1, h2, h3⟩ := cullList_spec (prot := prot) l (n := (recStore seeds).num) (fun i hi => by
      obtain ⟨a, ha, -⟩ := hl1 i hi; exact (List.getElem?_eq_some_iff.1 ha).1) hcount
    rw [el]
    simp only [e']
    have hc : c < s'.seeds.length := by rw [h1, h.len]; exact (List.getElem?_eq_some_iff.1 hq).1
    rw [List.getElem?_eq_getElem hc]
    simp only
    have hmx : MatchedSeed seeds x := ⟨q, hqm, hm⟩
    obtain ⟨b0, hb0⟩ : ∃ b0, s'.seeds[c]? = some b0 := ⟨_, List.getElem?_eq_getElem hc⟩
    have hb0' : s'.seeds[c] = b0 := Option.some.inj ((List.getElem?_eq_getElem hc).symm.trans hb0)
    rw [hb0']
    have hbx : b0.x = q.x ∧ b0.region = q.region := by
      have := h.same c q b0 hq (by rw [← h1]; exact hb0)
      exact ⟨this.1, this.2.1⟩
    refine ⟨_, rfl, ?_, ?_, ?_, ?_, ?_, h3⟩
    · simp only [List.length_set]; rw [h1, h.len]
    · intro i a b ha hb
      simp only [List.getElem?_set] at hb
      split at hb
      · rename_i hci
        subst hci
        obtain rfl := Option.some.inj hb
        obtain rfl := Option.some.inj (hq.symm.trans ha)
        exact ⟨hbx.1, hbx.2, Or.inr ⟨x, by simp, rfl, hm⟩⟩
      · rw [h1] at hb
        obtain ⟨g1, g2, g3⟩ := h.same i a b ha hb
        refine ⟨g1, g2, ?_⟩
        rcases g3 with g3 | ⟨y, hy, g3⟩
        · exact Or.inl g3
        · exact Or.inr ⟨y, by simp [hy], g3⟩
    · intro y hy hmy
      simp only
      have hnew : (s'.seeds.set c { b0 with size := x 3 })[c]? = some { b0 with size := x 3 } := by rw [List.getElem?_set, if_pos rfl, if_pos hc]
      rcases List.mem_cons.1 hy with rfl | hy
      · exact ⟨c, _, hnew, by simp only; rw [hbx.1]; exact hm, y, by simp, rfl, by simp only; rw [hbx.1]; exact hm⟩
      · obtain ⟨i, b, hb, g1, z, hz, g2, g3⟩ := h.sized y hy hmy
        by_cases hci : c = i
        · subst hci
          rw [← h1, hb0] at hb
          obtain rfl := Option.some.inj hb
          exact ⟨c, _, hnew, g1, x, by simp, rfl, by simp only; rw [hbx.1]; exact hm⟩
        · exact ⟨i, b, by rw [List.getElem?_set, if_neg hci, h1]; exact hb, g1, z, by simp [hz], g2, g3⟩
    · intro i hi
      rcases (h2 i).1 hi with hi | ⟨hi, hp⟩
      · obtain ⟨g1, a, y, g2, g3, g4⟩ := h.gone i hi
        exact ⟨g1, a, y, g2, by simp [g3], g4⟩
      · obtain ⟨a, ha, hd⟩ := hl1 i hi
        exact ⟨hp, a, x, ha, by simp, hmx, hd⟩
    · intro i a ha hv hp y hy hmy
      have hv' : ¬ s'.valid i = false := by rw [hv]; simp
      rw [h2] at hv'
      push Not at hv'
      rcases List.mem_cons.1 hy with rfl | hy
      · by_contra hlt
        have := hv'.2 (hl2 i a ha (not_le.1 hlt))
        omega
      · exact h.kept i a ha (by simpa using hv'.1) hp y hy hmy
  · rw [if_neg hm]
    have hnm : ¬ MatchedSeed seeds x := by
      rintro ⟨a, ha, hd⟩
      exact hm ((hmin a ha).trans_lt hd)
    refine ⟨s, rfl, h.len, ?_, ?_, ?_, ?_, h.count⟩
    · intro i a b ha hb
      obtain ⟨g1, g2, g3⟩ := h.same i a b ha hb
      refine ⟨g1, g2, ?_⟩
      rcases g3 with g3 | ⟨y, hy, g3⟩
      · exact Or.inl g3
      · exact Or.inr ⟨y, by simp [hy], g3⟩
    · intro y hy hmy
      rcases List.mem_cons.1 hy with rfl | hy
      · exact absurd hmy hnm
      · obtain ⟨i, b, hb, g1, z, hz, g2⟩ := h.sized y hy hmy
        exact ⟨i, b, hb, g1, z, by simp [hz], g2⟩
    · intro i hi
      obtain ⟨g1, a, y, g2, g3, g4⟩ := h.gone i hi
      exact ⟨g1, a, y, g2, by simp [g3], g4⟩
    · intro i a ha hv hp y hy hmy
      rcases List.mem_cons.1 hy with rfl | hy
      · exact absurd hmy hnm
      · exact h.kept i a ha hv hp y hy hmy

theorem cullAll_spec {prot : Nat} {seeds : List SeedRec} {ln : Links} (hT : RealTree (recStore seeds) ln) (xs : List (Nat → ℝ)) (hx : ∀ x ∈ xs, 0 ≤ x 3) {pts : List (Nat → ℝ)} {s : Culling}
    (h : CullInv prot seeds pts s) : ∃ s', cullAll (recStore seeds) ln prot xs s = some s' ∧ CullInv prot seeds (xs.reverse ++ pts) s' := by
  induction xs generalizing pts s with
  | nil => exact ⟨s, rfl, h⟩
  | cons x xs ih =>
    obtain ⟨s1, e1, h1⟩ := cullOne_spec hT h (hx x (by simp))
    obtain ⟨s2, e2, h2⟩ := ih (fun y hy => hx y (by simp [hy])) h1
    refine ⟨s2, by unfold cullAll; rw [e1]; exact e2, ?_⟩
    simpa using h2

/-- The records whose index is to be kept, in order. -/
def keepSeeds (keep : Nat → Bool) (xs : List SeedRec) : List SeedRec := (xs.zipIdx.filter fun p => keep p.2).map Prod.fst

theorem kept_length (keep : Nat → Bool) (xs : List SeedRec) (i : Nat) :
    (((xs.zipIdx i).filter fun p => keep p.2).map Prod.fst).length + ((List.range' i xs.length).countP fun k => !keep k) = xs.length := by
  induction xs generalizing i with
  | nil => rfl
  | cons a xs ih =>
    have := ih (i + 1)
    simp only [List.length_map] at this
    simp only [List.zipIdx_cons, List.length_cons, List.range'_succ, List.length_map]
    cases hk : keep i <;> simp [hk] <;> omega

theorem compactSeeds_spec (keep : Nat → Bool) (rs : List SeedRec) (i k : Nat) (b : SeedBuf) (h : k + (((rs.zipIdx i).filter fun p => keep p.2).map Prod.fst).length ≤ b.cap) :
    ∃ b', compactSeeds keep rs i k b = some (b', k + (((rs.zipIdx i).filter fun p => keep p.2).map Prod.fst).length) ∧ b'.cap = b.cap ∧ (∀ j, j < k → b'.cell j = b.cell j) ∧
      ∀ j r, (((rs.zipIdx i).filter fun p => keep p.2).map Prod.fst)[j]? = some r → b'.cell (k + j) = some r := by
  induction rs generalizing i k b with
  | nil => exact ⟨b, rfl, rfl, fun _ _ => rfl, by simp⟩
  | cons a rs ih =>
    cases hk : keep i with
    | false =>
      have he : (((a :: rs).zipIdx i).filter fun p => keep p.2).map Prod.fst = ((rs.zipIdx (i + 1)).filter fun p => keep p.2).map Prod.fst := by simp [List.zipIdx_cons, hk]
      rw [he] at h ⊢
      obtain ⟨b', e, h1⟩ := ih (i + 1) k b h
      exact ⟨b', by unfold compactSeeds; rw [hk]; simp [e], h1⟩
    | true =>
      have he : (((a :: rs).zipIdx i).filter fun p => keep p.2).map Prod.fst = a :: ((rs.zipIdx (i + 1)).filter fun p => keep p.2).map Prod.fst := by simp [List.zipIdx_cons, hk]
      rw [he] at h ⊢
      simp only [List.length_cons] at h ⊢
      obtain ⟨b', e, h1, h2, h3⟩ := ih (i + 1) (k + 1) ⟨b.cap, upd b.cell k (some a)⟩ (by simp only; omega)
      refine ⟨b', ?_, h1, fun j hj => ?_, fun j r hr => ?_⟩
      · unfold compactSeeds SeedBuf.put
        rw [if_pos hk, if_pos (by omega)]
        simp only
        rw [e, Nat.add_assoc, Nat.add_comm 1]
      · rw [h2 j (by omega)]; simp [upd, show j ≠ k by omega]
      · cases j with
        | zero =>
          simp only [List.getElem?_cons_zero, Option.some.injEq] at hr
          subst hr
          rw [Nat.add_zero, h2 _ (by omega)]; simp [upd]
        | succ j =>
          simp only [List.getElem?_cons_succ] at hr
          have := h3 j r hr
          rw [show k + (j + 1) = k + 1 + j by omega]; exact this

theorem removeCulled_spec {s : Culling} (h : s.removed = (List.range s.seeds.length).countP fun i => !s.valid i) : removeCulled s = some (keepSeeds s.valid s.seeds) := by
  have hl := kept_length s.valid s.seeds 0
  rw [← List.range_eq_range', ← h] at hl
  unfold removeCulled
  by_cases h0 : 0 < s.removed
  · rw [if_pos h0, if_pos (by omega)]
    obtain ⟨b, e, h1, -, h3⟩ := compactSeeds_spec s.valid s.seeds 0 0 (SeedBuf.new (s.seeds.length - s.removed)) (by simp only [SeedBuf.new]; omega)
    rw [e]
    simp only
    have hlen : s.seeds.length - s.removed = (keepSeeds s.valid s.seeds).length := by unfold keepSeeds; omega
    rw [hlen]
    refine take_spec b _ ?_ fun k r hr => ?_
    · rw [h1]; simp only [SeedBuf.new]; omega
    · have := h3 k r hr
      simpa using this
  · rw [if_neg h0]
    have hz : s.removed = 0 := by omega
    rw [hz] at h
    have hall := List.countP_eq_zero.1 h.symm
    congr 1
    unfold keepSeeds
    rw [List.filter_eq_self.2, List.zipIdx_map_fst]
    intro p hp
    have := (List.mem_zipIdx' hp).1
    simpa using hall p.2 (List.mem_range.2 this)

theorem snapAll_spec {seeds : List SeedRec} {ln : Links} (hT : RealTree (recStore seeds) ln) {ss : List SeedRec} (hl : ss.length = seeds.length) (xs : List (Nat → ℝ)) :
    ∃ ps, xs.mapM (snapImposed (recStore seeds) ln ss) = some ps ∧
      List.Forall₂ (fun x p => (MatchedSeed seeds x ∧ p = x) ∨ (¬ MatchedSeed seeds x ∧ ∃ (c : Nat) (a b : SeedRec), seeds[c]? = some a ∧ ss[c]? = some b ∧
        (∀ q ∈ seeds, euclid 3 x a.x ≤ euclid 3 x q.x) ∧ p 3 = b.size ∧ ∀ d, d < 3 → p d = b.x d)) xs ps := by
  induction xs with
  | nil => exact ⟨[], rfl, .nil⟩
  | cons x xs ih =>
    obtain ⟨ps, e, h⟩ := ih
    obtain ⟨c, a, ea, ha, hmin⟩ := closestStore_spec hT x
    by_cases hm : euclid 3 x a.x < 1e-10
    · refine ⟨x :: ps, ?_, .cons (Or.inl ⟨⟨a, List.mem_of_getElem? ha, hm⟩, rfl⟩) h⟩
      rw [List.mapM_cons, e]
      unfold snapImposed
      rw [ea]
      simp only [if_pos hm]
      rfl
    · have hc : c < ss.length := by rw [hl]; exact (List.getElem?_eq_some_iff.1 ha).1
      refine ⟨(fun d => if d = 3 then (ss[c]).size else (ss[c]).x d) :: ps, ?_, .cons (Or.inr ⟨?_, c, a, ss[c], ha, List.getElem?_eq_getElem hc, hmin, ?_, ?_⟩) h⟩
      · rw [List.mapM_cons, e]
        unfold snapImposed
        rw [ea]
        simp only [if_neg hm, List.getElem?_eq_getElem hc]
        rfl
      · rintro ⟨q, hq, hd⟩
        exact hm ((hmin q hq).trans_lt hd)
      · simp
      · intro d hd; simp [show d ≠ 3 by omega]

/-- **C57.** For every list of seeds and every list of imposed monitoring points with radii `x 3 ≥ 0`: the new arrays hold exactly the seeds that are kept, in their order, each with its own
position and region, and with its own size unless an imposed point lies on it (`1e-10`), when it has the radius of such a point.  A seed is removed only if it comes after the first
`prot` seeds and is in the sphere of an imposed point that is itself a seed (squared distance below `(1 + 2e-6) r²`), and every other seed after the first `prot` is outside all those spheres.
The written monitoring points are the imposed points, or the closest seed with its size. -/
theorem C57_removal (prot : Nat) (seeds : List SeedRec) (imposed : List (Nat → ℝ)) (hne : seeds ≠ []) (hr : ∀ x ∈ imposed, 0 ≤ x 3) :
    ∃ (keep : Nat → Bool) (ss : List SeedRec) (ps : List (Nat → ℝ)), imposeMonitoring prot seeds imposed = some (keepSeeds keep ss, ps) ∧
      ss.length = seeds.length ∧
      (∀ (i : Nat) (a b : SeedRec), seeds[i]? = some a → ss[i]? = some b → b.x = a.x ∧ b.region = a.region ∧ (b.size = a.size ∨ ∃ x ∈ imposed, b.size = x 3 ∧ euclid 3 x a.x < 1e-10)) ∧
      (∀ x ∈ imposed, MatchedSeed seeds x → ∃ (i : Nat) (b : SeedRec), ss[i]? = some b ∧ euclid 3 x b.x < 1e-10 ∧ ∃ y ∈ imposed, b.size = y 3 ∧ euclid 3 y b.x < 1e-10) ∧
      (∀ (i : Nat) (a : SeedRec), seeds[i]? = some a → keep i = false → prot ≤ i ∧ ∃ x ∈ imposed, MatchedSeed seeds x ∧ euclidSq 3 x a.x < (1 + 2e-6) * x 3 ^ 2) ∧
      (∀ (i : Nat) (a : SeedRec), seeds[i]? = some a → keep i = true → prot ≤ i → ∀ x ∈ imposed, MatchedSeed seeds x → x 3 ≤ euclid 3 x a.x) ∧
      List.Forall₂ (fun x p => (MatchedSeed seeds x ∧ p = x) ∨ (¬ MatchedSeed seeds x ∧ ∃ (c : Nat) (a b : SeedRec), seeds[c]? = some a ∧ ss[c]? = some b ∧
        (∀ q ∈ seeds, euclid 3 x a.x ≤ euclid 3 x q.x) ∧ p 3 = b.size ∧ ∀ d, d < 3 → p d = b.x d)) imposed ps := by
  obtain ⟨ln, e, hT⟩ := recTree false hne
  have h0 : CullInv prot seeds [] ⟨fun _ => true, 0, seeds⟩ := by
    refine ⟨rfl, fun i a b ha hb => ?_, by simp, by simp, by simp, by simp⟩
    obtain rfl := Option.some.inj (ha.symm.trans hb)
    exact ⟨rfl, rfl, Or.inl rfl⟩
  obtain ⟨s, es, hs⟩ := cullAll_spec hT imposed hr h0
  simp only [List.append_nil] at hs
  obtain ⟨ps, ep, hp⟩ := snapAll_spec hT hs.len imposed
  refine ⟨s.valid, s.seeds, ps, ?_, hs.len, ?_, ?_, ?_, ?_, hp⟩
  · unfold imposeMonitoring
    simp only [e, es, ep]
    rw [removeCulled_spec (by rw [hs.len]; exact hs.count)]
  · intro i a b ha hb
    simpa using hs.same i a b ha hb
  · intro x hx hm
    simpa using hs.sized x (by simpa using hx) hm
  · intro i a ha hv
    obtain ⟨h1, a', x, h2, h3, h4⟩ := hs.gone i hv
    obtain rfl := Option.some.inj (h2.symm.trans ha)
    exact ⟨h1, x, by simpa using h3, h4⟩
  · intro i a ha hv hp x hx hm
    exact hs.kept i a ha hv hp x (by simpa using hx) hm

/-! ## C73: a written monitoring point that is not a seed -/

/-- Two seeds one apart; the first is protected. -/
def mSeeds : List SeedRec := [⟨fun _ => 0, 1, 1⟩, ⟨fun d => if d = 0 then 1 else 0, 1, 1⟩]
/-- An imposed point on the first seed with radius 3/2, and one near the second seed. -/
noncomputable def mImposed : List (Nat → ℝ) := [fun d => if d = 3 then 3 / 2 else 0, fun d => if d = 0 then 11 / 10 else 0]

theorem euclid3_axis (x y : Nat → ℝ) (h1 : x 1 = y 1) (h2 : x 2 = y 2) : euclid 3 x y = |x 0 - y 0| := by
  have : euclidSq 3 x y = (x 0 - y 0) ^ 2 := by
    unfold euclidSq
    simp [Finset.sum_range_succ, h1, h2]
  show Real.sqrt (euclidSq 3 x y) = _
  rw [this, Real.sqrt_sq_eq_abs]

/-- **C73 fails.** The monitoring point near the second seed is moved to that seed although it is removed in the same call, because it lies in the sphere of the other monitoring point: the
written monitoring point is the position of no seed of the result. -/
theorem C73_monitoring_point_removed_false : ∃ (out : List SeedRec) (ps : List (Nat → ℝ)), imposeMonitoring 1 mSeeds mImposed = some (out, ps) ∧ ∃ p ∈ ps, ∀ s ∈ out, ∃ d, d < 3 ∧ p d ≠ s.x d := by
  obtain ⟨keep, ss, ps, e, hl, h1, -, h3, h4, h5⟩ := C57_removal 1 mSeeds mImposed (by simp [mSeeds]) (by simp [mImposed]; norm_num)
  refine ⟨_, ps, e, ?_⟩
  have hlen : ss.length = 2 := hl
  obtain ⟨b0, b1, rfl⟩ : ∃ b0 b1, ss = [b0, b1] := by
    rcases ss with _ | ⟨b0, _ | ⟨b1, _ | ⟨b2, ss⟩⟩⟩ <;> simp at hlen
    exact ⟨b0, b1, rfl⟩
  have g0 := (h1 0 ⟨fun _ => 0, 1, 1⟩ b0 rfl rfl).1
  have g1 := (h1 1 ⟨fun d => if d = 0 then 1 else 0, 1, 1⟩ b1 rfl rfl).1
  have hm : MatchedSeed mSeeds (fun d => if d = 3 then 3 / 2 else 0) := ⟨⟨fun _ => 0, 1, 1⟩, by simp [mSeeds], by rw [euclid3_axis _ _ (by simp) (by simp)]; norm_num⟩
  have k0 : keep 0 = true := by
    by_contra hk
    have := (h3 0 _ rfl (by simpa using hk)).1
    omega
  have k1 : keep 1 = false := by
    by_contra hk
    have := h4 1 ⟨fun d => if d = 0 then 1 else 0, 1, 1⟩ (by simp [mSeeds]) (by simpa using hk) (le_refl 1) _ (List.mem_cons_self ..) hm
    rw [euclid3_axis _ _ (by simp) (by simp)] at this
    norm_num at this
  have hnm : ¬ MatchedSeed mSeeds (fun d => if d = 0 then 11 / 10 else 0) := by
    rintro ⟨q, hq, hd⟩
    simp only [mSeeds, List.mem_cons, List.not_mem_nil, or_false] at hq
    rcases hq with rfl | rfl
    · rw [euclid3_axis _ _ (by simp) (by simp)] at hd; norm_num [abs_of_pos] at hd
    · rw [euclid3_axis _ _ (by simp) (by simp)] at hd; norm_num [abs_of_pos] at hd
  unfold mImposed at h5
  cases h5 with
  | cons a h5 => cases h5 with
    | @cons _ p _ ps' b h5 =>
      refine ⟨p, by simp, ?_⟩
      rcases b with ⟨hb, -⟩ | ⟨-, c, a, b, hc, hb, hmin, -, hp⟩
      · exact absurd hb hnm
      · intro s hs
        have hs0 : s = b0 := by
          have : keepSeeds keep [b0, b1] = [b0] := by simp [keepSeeds, List.zipIdx_cons, k0, k1]
          rw [this] at hs
          exact List.mem_singleton.1 hs
        subst hs0
        have hmin1 := hmin ⟨fun d => if d = 0 then 1 else 0, 1, 1⟩ (by simp [mSeeds])
        rw [euclid3_axis (fun d => if d = 0 then 11 / 10 else 0) (fun d => if d = 0 then 1 else 0) (by simp) (by simp)] at hmin1
        rcases c with _ | _ | c
        · simp only [mSeeds, List.getElem?_cons_zero, Option.some.injEq] at hc
          subst hc
          rw [euclid3_axis _ _ (by simp) (by simp)] at hmin1
          norm_num [abs_of_pos] at hmin1
        · simp only [List.getElem?_cons_succ, List.getElem?_cons_zero, Option.some.injEq] at hb
          subst hb
          refine ⟨0, by omega, ?_⟩
          rw [hp 0 (by omega), g0, g1]
          norm_num
        · simp [mSeeds] at hc

/-! ## C58: generated monitoring points -/

theorem pickIndex_lt {ρ : ℝ → ℝ} (hmono : Monotone ρ) {n : Nat} (hn : 0 < n) (hρ : ρ n = n) {u : ℝ} (h1 : u ≤ 1) : pickIndex ρ u n < n := by
  have hle : ⌊ρ (u * n)⌋₊ ≤ n := by
    have : ρ (u * n) ≤ n := by
      rw [← hρ]
      apply hmono
      rw [hρ]
      have : (0 : ℝ) ≤ n := Nat.cast_nonneg n
      nlinarith
    exact (Nat.floor_le_floor this).trans (by simp)
  unfold pickIndex
  split_ifs <;> omega

theorem swapAt_perm {α : Type} (a : Nat → α) (i j : Nat) : ∃ σ : Equiv.Perm Nat, σ = Equiv.swap i j ∧ ∀ k, swapAt a i j k = a (σ k) := by
  refine ⟨Equiv.swap i j, rfl, fun k => ?_⟩
  unfold swapAt
  rw [Equiv.swap_apply_def]
  split_ifs <;> simp_all

/-- The shuffle stays in bounds and permutes the entries from `s` on. -/
theorem shuffleFrom_spec {α : Type} {ρ : ℝ → ℝ} (hmono : Monotone ρ) {s n : Nat} (hρ : ρ ((n - s : Nat) : ℝ) = ((n - s : Nat) : ℝ)) (us : List ℝ) (hu : ∀ u ∈ us, u ≤ 1) {i : Nat} (hi : s ≤ i)
    (hlen : i + us.length ≤ n) (a : Nat → α) :
    ∃ b, shuffleFrom ρ s n i us a = some b ∧ ∃ σ : Equiv.Perm Nat, (∀ k, b k = a (σ k)) ∧ ∀ k, k < s ∨ n ≤ k → σ k = k := by
  induction us generalizing i a with
  | nil => exact ⟨a, rfl, Equiv.refl _, fun _ => rfl, fun _ _ => rfl⟩
  | cons u us ih =>
    simp only [List.length_cons] at hlen
    have hj := pickIndex_lt hmono (n := n - s) (by omega) hρ (hu u (by simp))
    obtain ⟨b, e, σ, h1, h2⟩ := ih (fun v hv => hu v (by simp [hv])) (i := i + 1) (by omega) (by omega) (swapAt a i (s + pickIndex ρ u (n - s)))
    refine ⟨b, ?_, σ.trans (Equiv.swap i (s + pickIndex ρ u (n - s))), fun k => ?_, fun k hk => ?_⟩
    · unfold shuffleFrom
      simp only
      rw [if_pos ⟨by omega, by omega⟩]
      exact e
    · obtain ⟨τ, rfl, hτ⟩ := swapAt_perm a i (s + pickIndex ρ u (n - s))
      rw [h1, hτ]; rfl
    · simp only [Equiv.trans_apply]
      rw [h2 k hk]
      exact Equiv.swap_apply_of_ne_of_ne (by omega) (by omega)

theorem mapM_getElem {seeds : List SeedRec} (l : List Nat) (hl : ∀ i ∈ l, i < seeds.length) : ∃ ps, l.mapM (fun i => seeds[i]?) = some ps ∧ List.Forall₂ (fun i p => seeds[i]? = some p) l ps := by
  induction l with
  | nil => exact ⟨[], rfl, .nil⟩
  | cons i l ih =>
    obtain ⟨ps, e, h⟩ := ih fun j hj => hl j (by simp [hj])
    have hi := hl i (by simp)
    refine ⟨seeds[i] :: ps, ?_, .cons (List.getElem?_eq_getElem hi) h⟩
    rw [List.mapM_cons, e, List.getElem?_eq_getElem hi]
    rfl

/-- **C58, what holds.** For all seeds, all draws in `[0, 1]` (one per interior seed) and every monotone rounding of the product `u * n` that is exact on integers: the generated monitoring points are the
seeds with `min (n - s) 100` pairwise distinct indices from `s` on.  Missing: the code passes the number of surface seeds for `s`, and the seeds added on sharp edges come right after those, so a
monitoring point can be a seed on a sharp edge (`C58_on_sharp_edge_false`). -/
theorem C58_monitoring_points_partial (ρ : ℝ → ℝ) (hmono : Monotone ρ) (hρ : ∀ n : Nat, ρ n = n) (s : Nat) (seeds : List SeedRec) (us : List ℝ) (hs : s ≤ seeds.length) (hlen : us.length = seeds.length - s)
    (hu : ∀ u ∈ us, 0 ≤ u ∧ u ≤ 1) :
    ∃ (l : List Nat) (ps : List SeedRec), monitoringPoints ρ s seeds us = some ps ∧ List.Forall₂ (fun i p => seeds[i]? = some p) l ps ∧ l.Nodup ∧ l.length = min (seeds.length - s) 100 ∧
      ∀ i ∈ l, s ≤ i ∧ i < seeds.length := by
  obtain ⟨b, e, σ, h1, h2⟩ := shuffleFrom_spec hmono (hρ (seeds.length - s)) us (fun u hu' => (hu u hu').2) (le_refl s) (by omega) (fun i => i)
  have hmem : ∀ i ∈ (List.range (min (seeds.length - s) 100)).map (fun i => b (s + i)), s ≤ i ∧ i < seeds.length := by
    intro i hi
    obtain ⟨k, hk, rfl⟩ := List.mem_map.1 hi
    rw [List.mem_range] at hk
    rw [h1]
    by_contra hc
    have hc' : σ (s + k) < s ∨ seeds.length ≤ σ (s + k) := by omega
    have := h2 _ hc'
    have := σ.injective this
    omega
  obtain ⟨ps, ep, hp⟩ := mapM_getElem (seeds := seeds) _ fun i hi => (hmem i hi).2
  refine ⟨_, ps, ?_, hp, ?_, by simp, hmem⟩
  · unfold monitoringPoints
    rw [if_neg (by omega), e]
    exact ep
  · refine List.Nodup.map (fun i j hij => ?_) List.nodup_range
    simp only [h1] at hij
    have := σ.injective hij
    omega

-- non-vacuity: three seeds, one of them on the surface, exact products
example : ∃ ps, monitoringPoints id 1 [⟨fun _ => 0, 1, 1⟩, ⟨fun _ => 1, 1, 1⟩, ⟨fun _ => 2, 1, 1⟩] [1, 0] = some ps ∧ ps.length = 2 := by
  obtain ⟨l, ps, e, h, -, hl, -⟩ := C58_monitoring_points_partial id monotone_id (fun _ => rfl) 1 [⟨fun _ => 0, 1, 1⟩, ⟨fun _ => 1, 1, 1⟩, ⟨fun _ => 2, 1, 1⟩] [1, 0] (by simp) (by simp) (by simp)
  exact ⟨ps, e, by rw [← h.length_eq, hl]; simp⟩

end VoroCrust
