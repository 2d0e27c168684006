import Verif.Props.Fans
import Verif.Props.SurfaceSpheres
import Mathlib.Tactic.IntervalCases

/-! # C84: watertight surfaces, a tetrahedron and a pinched surface -/

namespace VoroCrust

section watertight

open Classical

/-! ## From the validation of the surface spheres -/

theorem countP_one {α : Type} (p : α → Bool) : ∀ l : List α, l.countP p = 1 → ∃ n b, l[n]? = some b ∧ p b = true ∧ ∀ (k : Nat) (c : α), l[k]? = some c → p c = true → k = n
  | [], h => by simp at h
  | x :: l, h => by
    rw [List.countP_cons] at h
    by_cases hx : p x = true
    · rw [if_pos hx] at h
      have h0 := List.countP_eq_zero.1 (show l.countP p = 0 by omega)
      refine ⟨0, x, rfl, hx, fun k c hk hc => ?_⟩
      cases k with
      | zero => rfl
      | succ k => exact absurd hc (h0 c (List.mem_of_getElem? (by simpa using hk)))
    · rw [if_neg hx] at h
      obtain ⟨n, b, h1, h2, h3⟩ := countP_one p l (by omega)
      refine ⟨n + 1, b, by simpa using h1, h2, fun k c hk hc => ?_⟩
      cases k with
      | zero => simp at hk; subst hk; exact absurd hc hx
      | succ k => rw [h3 k c (by simpa using hk) hc]

theorem countP_two {α : Type} (p : α → Bool) : ∀ l : List α, l.countP p = 2 → ∃ n m b c, n ≠ m ∧ l[n]? = some b ∧ l[m]? = some c ∧ p b = true ∧ p c = true ∧
    ∀ (k : Nat) (d : α), l[k]? = some d → p d = true → k = n ∨ k = m
  | [], h => by simp at h
  | x :: l, h => by
    rw [List.countP_cons] at h
    by_cases hx : p x = true
    · rw [if_pos hx] at h
      obtain ⟨n, b, h1, h2, h3⟩ := countP_one p l (by omega)
      refine ⟨0, n + 1, x, b, by omega, rfl, by simpa using h1, hx, h2, fun k c hk hc => ?_⟩
      cases k with
      | zero => exact Or.inl rfl
      | succ k => rw [h3 k c (by simpa using hk) hc]; exact Or.inr rfl
    · rw [if_neg hx] at h
      obtain ⟨n, m, b, c, h0, h1, h2, h3, h4, h5⟩ := countP_two p l (by omega)
      refine ⟨n + 1, m + 1, b, c, by omega, by simpa using h1, by simpa using h2, h3, h4, fun k d hk hd => ?_⟩
      cases k with
      | zero => simp at hk; subst hk; exact absurd hd hx
      | succ k => rcases h5 k d (by simpa using hk) hd with e | e <;> omega

/-- **C84, watertight.** The validation at the end of the sampling (C82) provides what the walk needs: if every edge at a surface sphere belongs to exactly two of the triangles of the lower
seeds, and every pair has one upper and one lower seed, then every edge at a surface sphere has exactly two triangles. -/
theorem C84_watertight_fans (F : FanEnv) (up lo : SeedTree) (ns : Nat) (hP : PairedSeeds F) (hF : F.attr = mergeSeedAttrs up lo)
    (hside : ∀ (s : Nat) (a : SeedAttr), F.attr[s]? = some a → (s < up.attr.length ↔ up.attr.length ≤ a.pair)) (hw : Watertight ns (lo.attr.map fun a => [a.s1, a.s2, a.s3])) :
    ∀ i, i < ns → ∀ w, TwoTriangles F i w := by
  have hlen : (up.attr.map fun a => ({ a with pair := a.pair + up.tree.num } : SeedAttr)).length = up.attr.length := by simp
  have hlow : ∀ (k : Nat) (a : SeedAttr), lo.attr[k]? = some a → F.attr[up.attr.length + k]? = some a := by
    intro k a hk
    rw [hF, mergeSeedAttrs, List.getElem?_append_right (by rw [hlen]; omega), hlen, Nat.add_sub_cancel_left]; exact hk
  have hlow' : ∀ (s : Nat) (a : SeedAttr), up.attr.length ≤ s → F.attr[s]? = some a → ∃ k, s = up.attr.length + k ∧ lo.attr[k]? = some a := by
    intro s a hs ha
    refine ⟨s - up.attr.length, by omega, ?_⟩
    rw [hF, mergeSeedAttrs, List.getElem?_append_right (by rw [hlen]; omega), hlen] at ha; exact ha
  -- every triangle has a lower seed
  have hlower : ∀ i u v, FanLinked F i u v → ∃ (k : Nat) (a : SeedAttr), lo.attr[k]? = some a ∧ [a.s1, a.s2, a.s3].Perm [i, u, v] := by
    rintro i u v ⟨s, a, ha, hp⟩
    by_cases hs : up.attr.length ≤ s
    · obtain ⟨k, -, hk⟩ := hlow' s a hs ha
      exact ⟨k, a, hk, hp⟩
    · obtain ⟨-, b, hb, -, hpb⟩ := hP.partner s a ha
      obtain ⟨k, -, hk⟩ := hlow' _ b ((hside s a ha).1 (by omega)) hb
      exact ⟨k, b, hk, hpb.trans hp⟩
  -- lower seeds of the same triangle are equal
  have huniq : ∀ (k m : Nat) (a b : SeedAttr), lo.attr[k]? = some a → lo.attr[m]? = some b → [a.s1, a.s2, a.s3].Perm [b.s1, b.s2, b.s3] → k = m := by
    intro k m a b hk hm hp
    rcases hP.only _ _ a b (hlow k a hk) (hlow m b hm) hp with e | e
    · omega
    · have := (hside _ a (hlow k a hk)).2 (by omega)
      omega
  intro i hi w u hu
  obtain ⟨k, a, hk, hp⟩ := hlower i u w hu
  have hnd := hp.nodup (hP.distinct a (List.mem_of_getElem? (hlow k a hk)))
  simp only [List.nodup_cons, List.mem_cons, List.not_mem_nil, or_false, not_or, List.nodup_nil, not_false_eq_true, and_true] at hnd
  have hmemf : ∀ {a : SeedAttr} {x y z q}, [a.s1, a.s2, a.s3].Perm [x, y, z] → (q ∈ [a.s1, a.s2, a.s3] ↔ q = x ∨ q = y ∨ q = z) := fun h => by
    rw [h.mem_iff]; simp
  have hcount := hw [a.s1, a.s2, a.s3] (List.mem_map.2 ⟨a, List.mem_of_getElem? hk, rfl⟩) i ((hmemf hp).2 (Or.inl rfl)) w ((hmemf hp).2 (Or.inr (Or.inr rfl))) hnd.1.2 hi
  rw [List.countP_map] at hcount
  obtain ⟨n, m, b, c, hnm, hb, hc, pb, pc, hall⟩ := countP_two _ _ hcount
  simp only [Function.comp, Bool.and_eq_true, decide_eq_true_eq] at pb pc hall
  -- a triangle with two given corners has a third
  have hthird : ∀ (k : Nat) (a : SeedAttr), lo.attr[k]? = some a → i ∈ [a.s1, a.s2, a.s3] → w ∈ [a.s1, a.s2, a.s3] → ∃ v, [a.s1, a.s2, a.s3].Perm [i, w, v] := by
    intro k a _ h1 h2
    obtain ⟨l, hl⟩ : ∃ l, [a.s1, a.s2, a.s3].Perm (i :: l) := ⟨_, List.perm_cons_erase h1⟩
    have h2' := hl.subset h2
    rcases List.mem_cons.1 h2' with e | h2'
    · exact absurd e.symm hnd.1.2
    · have hl2 := hl.trans ((List.perm_cons_erase h2').cons i)
      have := hl2.length_eq
      simp only [List.length_cons, List.length_nil, Nat.zero_add] at this
      obtain ⟨v, hv⟩ := List.length_eq_one_iff.1 (show (l.erase w).length = 1 by omega)
      rw [hv] at hl2
      exact ⟨v, hl2⟩
  have key : ∀ (k' : Nat) (a' : SeedAttr), lo.attr[k']? = some a' → k' ≠ k → i ∈ [a'.s1, a'.s2, a'.s3] ∧ w ∈ [a'.s1, a'.s2, a'.s3] →
      (∀ (k'' : Nat) (d : SeedAttr), lo.attr[k'']? = some d → i ∈ [d.s1, d.s2, d.s3] ∧ w ∈ [d.s1, d.s2, d.s3] → k'' = k ∨ k'' = k') →
      ∃ v, v ≠ u ∧ FanLinked F i w v ∧ ∀ x, FanLinked F i w x → x = u ∨ x = v := by
    intro k' a' hk' hne hin hall
    obtain ⟨v, hv⟩ := hthird k' a' hk' hin.1 hin.2
    have hswap : [i, u, w].Perm [i, w, u] := (List.Perm.swap w u []).cons i
    refine ⟨v, fun e => hne ?_, ⟨_, a', hlow k' a' hk', hv⟩, fun x hx => ?_⟩
    · rw [e] at hv
      exact huniq k' k a' a hk' hk (hv.trans (hswap.symm.trans hp.symm))
    · obtain ⟨q, d, hq, hd⟩ := hlower i w x hx
      rcases hall q d hq ⟨(hmemf hd).2 (Or.inl rfl), (hmemf hd).2 (Or.inr (Or.inl rfl))⟩ with e | e
      · subst e
        rw [hk] at hq; cases hq
        rcases perm_pair ((List.perm_cons i).1 (hd.symm.trans (hp.trans hswap))) with ⟨-, e⟩ | ⟨e, e'⟩
        · exact Or.inl e
        · exact Or.inl (e'.trans e)
      · subst e
        rw [hk'] at hq; cases hq
        rcases perm_pair ((List.perm_cons i).1 (hd.symm.trans hv)) with ⟨-, e⟩ | ⟨e, e'⟩
        · exact Or.inr e
        · exact Or.inr (e'.trans e)
  rcases hall k a hk ⟨(hmemf hp).2 (Or.inl rfl), (hmemf hp).2 (Or.inr (Or.inr rfl))⟩ with e | e
  · subst e
    exact key m c hc hnm.symm pc hall
  · subst e
    exact key n b hb hnm pb fun k d hk hd => (hall k d hk hd).symm

end watertight

/-! ## Examples -/

theorem perm_triple {a b c i u v : Nat} (h : [a, b, c].Perm [i, u, v]) :
    (i = a ∧ ((u = b ∧ v = c) ∨ (u = c ∧ v = b))) ∨ (i = b ∧ ((u = a ∧ v = c) ∨ (u = c ∧ v = a))) ∨ (i = c ∧ ((u = a ∧ v = b) ∨ (u = b ∧ v = a))) := by
  have hm : i ∈ [a, b, c] := h.symm.subset (by simp)
  simp only [List.mem_cons, List.not_mem_nil, or_false] at hm
  rcases hm with rfl | rfl | rfl
  · rcases perm_pair ((List.perm_cons i).1 h.symm) with h | h
    · exact Or.inl ⟨rfl, Or.inl h⟩
    · exact Or.inl ⟨rfl, Or.inr h⟩
  · have := (List.perm_append_comm (l₁ := [i]) (l₂ := [a])).append_right [c] |>.trans h
    rcases perm_pair ((List.perm_cons i).1 this.symm) with h | h
    · exact Or.inr (Or.inl ⟨rfl, Or.inl h⟩)
    · exact Or.inr (Or.inl ⟨rfl, Or.inr h⟩)
  · have := (List.perm_append_comm (l₁ := [i]) (l₂ := [a, b])).trans h
    rcases perm_pair ((List.perm_cons i).1 this.symm) with h | h
    · exact Or.inr (Or.inr ⟨rfl, Or.inl h⟩)
    · exact Or.inr (Or.inr ⟨rfl, Or.inr h⟩)

theorem areaVec_perm (f : Nat → V3) {a b c i u v : Nat} (h : [a, b, c].Perm [i, u, v]) :
    (∀ d, areaVec ![f i, f u, f v] d = areaVec ![f a, f b, f c] d) ∨ ∀ d, areaVec ![f i, f u, f v] d = -areaVec ![f a, f b, f c] d := by
  rcases perm_triple h with ⟨rfl, ⟨rfl, rfl⟩ | ⟨rfl, rfl⟩⟩ | ⟨rfl, ⟨rfl, rfl⟩ | ⟨rfl, rfl⟩⟩ | ⟨rfl, ⟨rfl, rfl⟩ | ⟨rfl, rfl⟩⟩
  · exact Or.inl fun d => rfl
  · exact Or.inr fun d => areaVec_turn _ _ _ d
  · exact Or.inr fun d => by unfold areaVec cross3; fin_cases d <;> simp <;> ring
  · exact Or.inl fun d => by unfold areaVec cross3; fin_cases d <;> simp <;> ring
  · exact Or.inl fun d => by unfold areaVec cross3; fin_cases d <;> simp <;> ring
  · exact Or.inr fun d => by unfold areaVec cross3; fin_cases d <;> simp <;> ring

theorem triNormal_ok (c : Fin 3 → V3) (hb : ∀ k d, |c k d| ≤ 1) (h : ∃ d, 1 ≤ |areaVec c d|) : (triNormal c).2 = true := by
  by_contra hno
  have hle := triNormal_false c (by simpa using hno)
  have hl : ∀ k, len3 (fun d => c k d - c 0 d) ≤ 4 := by
    intro k
    unfold len3
    rw [show (4 : ℝ) = Real.sqrt 16 by rw [show (16 : ℝ) = 4 ^ 2 by norm_num]; exact (Real.sqrt_sq (by norm_num)).symm]
    apply Real.sqrt_le_sqrt
    unfold dot3
    have : ∀ d, (c k d - c 0 d) * (c k d - c 0 d) ≤ 4 := by
      intro d
      have h1 := abs_le.1 (hb k d)
      have h2 := abs_le.1 (hb 0 d)
      nlinarith
    linarith [this 0, this 1, this 2]
  have h0 : ∀ k, 0 ≤ len3 (fun d => c k d - c 0 d) := fun k => Real.sqrt_nonneg _
  have hge : 1 ≤ len3 (areaVec c) := by
    obtain ⟨d, hd⟩ := h
    unfold len3
    rw [show (1 : ℝ) = Real.sqrt 1 by simp]
    apply Real.sqrt_le_sqrt
    have h1 : 1 ≤ areaVec c d * areaVec c d := by
      have := mul_self_le_mul_self (by norm_num : (0 : ℝ) ≤ 1) hd
      rwa [abs_mul_abs_self, one_mul] at this
    unfold dot3
    have q := fun d => mul_self_nonneg (areaVec c d)
    fin_cases d
    · have := q 1; have := q 2; simp at *; linarith
    · have := q 0; have := q 2; simp at *; linarith
    · have := q 0; have := q 1; simp at *; linarith
  unfold triScale at hle
  have := mul_le_mul (hl 1) (hl 2) (h0 2) (by norm_num)
  have := hl 1
  have := hl 2
  linarith

/-- Two seeds for every triangle of a list. -/
def twoSeeds : List (Nat × Nat × Nat) → Nat → List SeedAttr
  | [], _ => []
  | (a, b, c) :: l, k => ⟨k + 1, a, b, c⟩ :: ⟨k, a, b, c⟩ :: twoSeeds l (k + 2)

/-- The centres: the origin, the ends of the unit vectors, and those of their opposites. -/
def axisPoint (i : Nat) : V3 := fun d => if i = d.val + 1 then 1 else if i = d.val + 4 then -1 else 0

/-- Spheres around the corners of triangles, and for each triangle two seeds near its centroid. -/
noncomputable def axisFans (ts : List (Nat × Nat × Nat)) : FanEnv where
  attr := twoSeeds ts 0
  seed := fun s d => match (twoSeeds ts 0)[s]? with
    | some a => (axisPoint a.s1 d + axisPoint a.s2 d + axisPoint a.s3 d) / 3 + (if s % 2 = 0 then -1 / 10 else 1 / 10)
    | none => 0
  sphere := axisPoint

/-- The four faces of a tetrahedron. -/
def tetFaces : List (Nat × Nat × Nat) := [(0, 1, 2), (0, 2, 3), (0, 3, 1), (1, 2, 3)]

/-- Two tetrahedra with a common corner. -/
def pinchFaces : List (Nat × Nat × Nat) := tetFaces ++ [(0, 4, 5), (0, 5, 6), (0, 6, 4), (4, 5, 6)]

theorem axisPoint_le (i : Nat) (d : Fin 3) : |axisPoint i d| ≤ 1 := by
  unfold axisPoint; split_ifs <;> simp

/-- The faces of both examples have normals without small components. -/
theorem axis_sides (ts : List (Nat × Nat × Nat)) (hpair : ∀ (s : Nat) (a : SeedAttr), (twoSeeds ts 0)[s]? = some a → a.pair % 2 ≠ s % 2 ∧ ∃ b, (twoSeeds ts 0)[a.pair]? = some b ∧ b.s1 = a.s1 ∧ b.s2 = a.s2 ∧ b.s3 = a.s3)
    (harea : ∀ a ∈ twoSeeds ts 0, (∃ d, 1 ≤ |areaVec ![axisPoint a.s1, axisPoint a.s2, axisPoint a.s3] d|) ∧
      areaVec ![axisPoint a.s1, axisPoint a.s2, axisPoint a.s3] 0 + areaVec ![axisPoint a.s1, axisPoint a.s2, axisPoint a.s3] 1 + areaVec ![axisPoint a.s1, axisPoint a.s2, axisPoint a.s3] 2 ≠ 0)
    (s : Nat) (a : SeedAttr) (ha : (axisFans ts).attr[s]? = some a) (i u v : Nat) (hp : [a.s1, a.s2, a.s3].Perm [i, u, v]) :
    (triNormal ![(axisFans ts).sphere i, (axisFans ts).sphere u, (axisFans ts).sphere v]).2 = true ∧
      dot3 (fun d => (axisFans ts).seed a.pair d - (axisFans ts).seed s d) (areaVec ![(axisFans ts).sphere i, (axisFans ts).sphere u, (axisFans ts).sphere v]) ≠ 0 := by
  have ha' : (twoSeeds ts 0)[s]? = some a := ha
  obtain ⟨hpar, b, hb, h1, h2, h3⟩ := hpair s a ha'
  obtain ⟨⟨d0, hd0⟩, hsum⟩ := harea a (List.mem_of_getElem? ha')
  have hperm := areaVec_perm axisPoint hp
  have hdiff : ∃ σ : ℝ, σ ≠ 0 ∧ ∀ d, (axisFans ts).seed a.pair d - (axisFans ts).seed s d = σ := by
    simp only [axisFans, ha', hb, h1, h2, h3]
    by_cases hs : s % 2 = 0
    · refine ⟨1 / 5, by norm_num, fun d => ?_⟩
      rw [if_pos hs, if_neg (by omega)]; ring
    · refine ⟨-1 / 5, by norm_num, fun d => ?_⟩
      rw [if_neg hs, if_pos (by omega)]; ring
  obtain ⟨σ, hσ, hd⟩ := hdiff
  constructor
  · apply triNormal_ok
    · intro k d
      fin_cases k <;> exact axisPoint_le _ d
    · refine ⟨d0, ?_⟩
      show 1 ≤ |areaVec ![axisPoint i, axisPoint u, axisPoint v] d0|
      rcases hperm with h | h <;> rw [h d0]
      · exact hd0
      · rw [abs_neg]; exact hd0
  · have e : (fun d => (axisFans ts).seed a.pair d - (axisFans ts).seed s d) = fun _ => σ := funext hd
    rw [e]
    show dot3 (fun _ => σ) (areaVec ![axisPoint i, axisPoint u, axisPoint v]) ≠ 0
    unfold dot3
    rcases hperm with h | h
    · rw [h 0, h 1, h 2]
      intro hz
      exact hsum ((mul_eq_zero.1 (by linarith : σ * (areaVec ![axisPoint a.s1, axisPoint a.s2, axisPoint a.s3] 0 + areaVec ![axisPoint a.s1, axisPoint a.s2, axisPoint a.s3] 1 + areaVec ![axisPoint a.s1, axisPoint a.s2, axisPoint a.s3] 2) = 0)).resolve_left hσ)
    · rw [h 0, h 1, h 2]
      intro hz
      exact hsum ((mul_eq_zero.1 (by linarith : σ * (areaVec ![axisPoint a.s1, axisPoint a.s2, axisPoint a.s3] 0 + areaVec ![axisPoint a.s1, axisPoint a.s2, axisPoint a.s3] 1 + areaVec ![axisPoint a.s1, axisPoint a.s2, axisPoint a.s3] 2) = 0)).resolve_left hσ)

/-- The combinatorial part of `PairedSeeds`, as a check. -/
def pairCheck (l : List SeedAttr) : Bool :=
  (List.range l.length).all fun s => match l[s]? with
    | none => true
    | some a => decide (a.pair % 2 ≠ s % 2) && decide ([a.s1, a.s2, a.s3].Nodup) &&
      (match l[a.pair]? with
        | none => false
        | some b => decide (b.pair = s ∧ b.s1 = a.s1 ∧ b.s2 = a.s2 ∧ b.s3 = a.s3)) &&
      (List.range l.length).all fun t => match l[t]? with
        | none => true
        | some b => decide ([a.s1, a.s2, a.s3].Perm [b.s1, b.s2, b.s3] → t = s ∨ t = a.pair)

theorem pairCheck_spec {l : List SeedAttr} (h : pairCheck l = true) (s : Nat) (a : SeedAttr) (ha : l[s]? = some a) :
    a.pair % 2 ≠ s % 2 ∧ [a.s1, a.s2, a.s3].Nodup ∧ (∃ b, l[a.pair]? = some b ∧ b.pair = s ∧ b.s1 = a.s1 ∧ b.s2 = a.s2 ∧ b.s3 = a.s3) ∧
      ∀ (t : Nat) (b : SeedAttr), l[t]? = some b → [a.s1, a.s2, a.s3].Perm [b.s1, b.s2, b.s3] → t = s ∨ t = a.pair := by
  have hs : s < l.length := (List.getElem?_eq_some_iff.1 ha).1
  have := List.all_eq_true.1 h s (List.mem_range.2 hs)
  simp only [ha, Bool.and_eq_true, decide_eq_true_eq] at this
  obtain ⟨⟨⟨h1, h2⟩, h3⟩, h4⟩ := this
  refine ⟨h1, h2, ?_, fun t b hb hp => ?_⟩
  · cases hb : l[a.pair]? with
    | none => rw [hb] at h3; cases h3
    | some b => rw [hb] at h3; exact ⟨b, rfl, by simpa using h3⟩
  · have := List.all_eq_true.1 h4 t (List.mem_range.2 (List.getElem?_eq_some_iff.1 hb).1)
    simp only [hb, decide_eq_true_eq] at this
    exact this hp

theorem axis_paired (ts : List (Nat × Nat × Nat)) (hc : pairCheck (twoSeeds ts 0) = true)
    (harea : ∀ a ∈ twoSeeds ts 0, (∃ d, 1 ≤ |areaVec ![axisPoint a.s1, axisPoint a.s2, axisPoint a.s3] d|) ∧
      areaVec ![axisPoint a.s1, axisPoint a.s2, axisPoint a.s3] 0 + areaVec ![axisPoint a.s1, axisPoint a.s2, axisPoint a.s3] 1 + areaVec ![axisPoint a.s1, axisPoint a.s2, axisPoint a.s3] 2 ≠ 0) :
    PairedSeeds (axisFans ts) := by
  refine ⟨fun s a ha => ?_, fun a ha => ?_, fun s t a b ha hb hp => ?_, fun s a ha i u v hp => ?_⟩
  · obtain ⟨h1, -, ⟨b, hb, h2, h3, h4, h5⟩, -⟩ := pairCheck_spec hc s a ha
    exact ⟨fun e => h1 (by rw [e]), b, hb, h2, by rw [h3, h4, h5]⟩
  · obtain ⟨s, hs⟩ := List.getElem?_of_mem ha
    exact (pairCheck_spec hc s a hs).2.1
  · exact (pairCheck_spec hc s a ha).2.2.2 t b hb hp
  · refine axis_sides ts (fun s a ha => ?_) harea s a ha i u v hp
    obtain ⟨h1, -, ⟨b, hb, -, h2⟩, -⟩ := pairCheck_spec hc s a ha
    exact ⟨h1, b, hb, h2⟩

/-- `FanLinked`, as a check. -/
def linkCheck (l : List SeedAttr) (i u v : Nat) : Bool := l.any fun a => decide ([a.s1, a.s2, a.s3].Perm [i, u, v])

theorem linked_iff (F : FanEnv) (i u v : Nat) : FanLinked F i u v ↔ linkCheck F.attr i u v = true := by
  unfold FanLinked Spokes linkCheck
  rw [List.any_eq_true]
  constructor
  · rintro ⟨s, a, ha, hp⟩
    exact ⟨a, List.mem_of_getElem? ha, by simpa using hp⟩
  · rintro ⟨a, ha, hp⟩
    obtain ⟨s, hs⟩ := List.getElem?_of_mem ha
    exact ⟨s, a, hs, by simpa using hp⟩

theorem linked_lt {F : FanEnv} {n : Nat} (hn : ∀ a ∈ F.attr, a.s1 < n ∧ a.s2 < n ∧ a.s3 < n) {i u v : Nat} (h : FanLinked F i u v) : u < n ∧ v < n := by
  obtain ⟨s, a, ha, hp⟩ := h
  obtain ⟨h1, h2, h3⟩ := hn a (List.mem_of_getElem? ha)
  have hm : ∀ x ∈ [i, u, v], x < n := by
    intro x hx
    have := hp.symm.subset hx
    simp only [List.mem_cons, List.not_mem_nil, or_false] at this
    rcases this with e | e | e <;> rw [e] <;> assumption
  exact ⟨hm u (by simp), hm v (by simp)⟩

theorem twoTriangles_check {F : FanEnv} {n : Nat} (hn : ∀ a ∈ F.attr, a.s1 < n ∧ a.s2 < n ∧ a.s3 < n)
    (hc : ∀ i w u : Fin n, linkCheck F.attr i u w = true → ∃ v : Fin n, v ≠ u ∧ linkCheck F.attr i w v = true ∧ ∀ x : Fin n, linkCheck F.attr i w x = true → x = u ∨ x = v) :
    ∀ i, i < n → ∀ w, TwoTriangles F i w := by
  intro i hi w u hu
  obtain ⟨h1, h2⟩ := linked_lt hn hu
  obtain ⟨v, h3, h4, h5⟩ := hc ⟨i, hi⟩ ⟨w, h2⟩ ⟨u, h1⟩ ((linked_iff F i u w).1 hu)
  refine ⟨v, fun e => h3 (Fin.ext e), (linked_iff F i w v).2 h4, fun x hx => ?_⟩
  rcases h5 ⟨x, (linked_lt hn hx).2⟩ ((linked_iff F i w x).1 hx) with e | e
  · exact Or.inl (congrArg Fin.val e)
  · exact Or.inr (congrArg Fin.val e)

theorem tet_paired : PairedSeeds (axisFans tetFaces) := by
  refine axis_paired tetFaces (by decide +kernel) ?_
  intro a ha
  simp only [tetFaces, twoSeeds, List.mem_cons, List.not_mem_nil, or_false] at ha
  rcases ha with rfl | rfl | rfl | rfl | rfl | rfl | rfl | rfl <;>
    (unfold areaVec cross3; constructor
     · first
        | (refine ⟨0, ?_⟩; simp [axisPoint]; done)
        | (refine ⟨1, ?_⟩; simp [axisPoint]; done)
        | (refine ⟨2, ?_⟩; simp [axisPoint])
     · simp [axisPoint] <;> norm_num)

theorem tet_lt : ∀ a ∈ (axisFans tetFaces).attr, a.s1 < 4 ∧ a.s2 < 4 ∧ a.s3 < 4 := by
  show ∀ a ∈ twoSeeds tetFaces 0, a.s1 < 4 ∧ a.s2 < 4 ∧ a.s3 < 4
  decide +kernel

theorem tet_two : ∀ i, i < 4 → ∀ w, TwoTriangles (axisFans tetFaces) i w := by
  refine twoTriangles_check tet_lt ?_
  show ∀ i w u : Fin 4, linkCheck (twoSeeds tetFaces 0) i u w = true → ∃ v : Fin 4, v ≠ u ∧ linkCheck (twoSeeds tetFaces 0) i w v = true ∧
    ∀ x : Fin 4, linkCheck (twoSeeds tetFaces 0) i w x = true → x = u ∨ x = v
  decide +kernel

theorem tet_fan : ∀ i, i < 4 → OneFan (axisFans tetFaces) i := by
  have hc : ∀ i u x v y : Fin 4, linkCheck (twoSeeds tetFaces 0) i u x = true → linkCheck (twoSeeds tetFaces 0) i v y = true →
      u = v ∨ linkCheck (twoSeeds tetFaces 0) i u v = true := by decide +kernel
  rintro i hi u v ⟨x, hx⟩ ⟨y, hy⟩
  obtain ⟨h1, h2⟩ := linked_lt tet_lt hx
  obtain ⟨h3, h4⟩ := linked_lt tet_lt hy
  rcases hc ⟨i, hi⟩ ⟨u, h1⟩ ⟨x, h2⟩ ⟨v, h3⟩ ⟨y, h4⟩ ((linked_iff _ _ _ _).1 hx) ((linked_iff _ _ _ _).1 hy) with h | h
  · cases h; exact Relation.ReflTransGen.refl
  · exact Relation.ReflTransGen.single ((linked_iff _ _ _ _).2 h)

/-- A tetrahedron meets the hypotheses of `C84_regions`, for every exterior seed. -/
example (k k' : Nat) (e : Nat) (he : e < 8) :
    ∃ G c g reg nr, linkSpheres 4 4 (axisFans tetFaces).attr 0 { rows := none, cap := k } = some G ∧
      colourSpheres (axisFans tetFaces) 4 8 G 4 (fun _ => 0) { rows := none, cap := k' } = some (c, g) ∧ colourSeeds g 8 e = some (reg, nr) ∧ reg e = 0 := by
  obtain ⟨G, c, g, reg, nr, h1, h2, -, h3, h4, -⟩ := C84_regions (axisFans tetFaces) 4 4 8 k k' tet_paired (by simp [axisFans, tetFaces, twoSeeds]) (by omega) (by simp [axisFans, tetFaces, twoSeeds])
    tet_lt tet_two tet_fan e (by simpa [axisFans, tetFaces, twoSeeds] using he)
  exact ⟨G, c, g, reg, nr, h1, h2, h3, h4⟩

theorem pinch_paired : PairedSeeds (axisFans pinchFaces) := by
  refine axis_paired pinchFaces (by decide +kernel) ?_
  intro a ha
  simp only [pinchFaces, tetFaces, List.cons_append, List.nil_append, twoSeeds, List.mem_cons, List.not_mem_nil, or_false] at ha
  rcases ha with rfl | rfl | rfl | rfl | rfl | rfl | rfl | rfl | rfl | rfl | rfl | rfl | rfl | rfl | rfl | rfl <;>
    (unfold areaVec cross3; constructor
     · first
        | (refine ⟨0, ?_⟩; simp [axisPoint]; done)
        | (refine ⟨1, ?_⟩; simp [axisPoint]; done)
        | (refine ⟨2, ?_⟩; simp [axisPoint])
     · simp [axisPoint] <;> norm_num)

theorem pinch_lt : ∀ a ∈ (axisFans pinchFaces).attr, a.s1 < 7 ∧ a.s2 < 7 ∧ a.s3 < 7 := by
  show ∀ a ∈ twoSeeds pinchFaces 0, a.s1 < 7 ∧ a.s2 < 7 ∧ a.s3 < 7
  decide +kernel

theorem pinch_two : ∀ i, i < 7 → ∀ w, TwoTriangles (axisFans pinchFaces) i w := by
  refine twoTriangles_check pinch_lt ?_
  show ∀ i w u : Fin 7, linkCheck (twoSeeds pinchFaces 0) i u w = true → ∃ v : Fin 7, v ≠ u ∧ linkCheck (twoSeeds pinchFaces 0) i w v = true ∧
    ∀ x : Fin 7, linkCheck (twoSeeds pinchFaces 0) i w x = true → x = u ∨ x = v
  decide +kernel

theorem pinch_not_fan : ¬ OneFan (axisFans pinchFaces) 0 := by
  have hc : ∀ u < 7, ∀ v < 7, linkCheck (twoSeeds pinchFaces 0) 0 u v = true → u < 4 → v < 4 := by decide +kernel
  intro h
  have hp := h 1 4 ⟨2, (linked_iff _ _ _ _).2 (by show linkCheck (twoSeeds pinchFaces 0) 0 1 2 = true; decide +kernel)⟩
    ⟨5, (linked_iff _ _ _ _).2 (by show linkCheck (twoSeeds pinchFaces 0) 0 4 5 = true; decide +kernel)⟩
  have : ∀ v, Relation.ReflTransGen (FanLinked (axisFans pinchFaces) 0) 1 v → v < 4 := by
    intro v hv
    induction hv with
    | refl => omega
    | @tail x y _ h ih =>
      obtain ⟨h1, h2⟩ := linked_lt pinch_lt h
      exact hc x h1 y h2 ((linked_iff _ _ _ _).1 h) ih
  have := this 4 hp
  omega

/-- Two tetrahedra with a common corner meet the hypotheses of `C84_pinch_false`: inside and outside get the same region somewhere. -/
example (k k' : Nat) (e : Nat) (he : e < 16) :
    ∃ G c g reg nr s p, linkSpheres 7 7 (axisFans pinchFaces).attr 0 { rows := none, cap := k } = some G ∧
      colourSpheres (axisFans pinchFaces) 7 16 G 7 (fun _ => 0) { rows := none, cap := k' } = some (c, g) ∧ colourSeeds g 16 e = some (reg, nr) ∧
      Partner (axisFans pinchFaces) s p ∧ p ∈ storedNeighbors g s ∧ reg s = reg p := by
  exact C84_pinch_false (axisFans pinchFaces) 7 7 16 k k' pinch_paired (by simp [axisFans, pinchFaces, tetFaces, twoSeeds]) (by omega)
    (by simp [axisFans, pinchFaces, tetFaces, twoSeeds]) pinch_lt pinch_two 0 (by omega) pinch_not_fan e (by simpa [axisFans, pinchFaces, tetFaces, twoSeeds] using he)

end VoroCrust
