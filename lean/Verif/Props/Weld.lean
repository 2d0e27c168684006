import Verif.Props.KdQuery
import Verif.Model.Weld
import Mathlib.Data.List.Forall2

/-! # Property C17: welding nearby points -/

set_option linter.unusedSimpArgs false

namespace VoroCrust

/-- The points of the list are pairwise at distance at least `h`. -/
def PairwiseApart (h : ℝ) (ps : List (Nat → ℝ)) : Prop := ps.Pairwise (fun p q => h ≤ euclid 3 q p)

/-- `map` sends each point to a representative among `reps`: the point itself or one within `h`. -/
def Represents (h : ℝ) (points reps : List (Nat → ℝ)) (map : List Nat) : Prop :=
  List.Forall₂ (fun x m => ∃ r, reps[m]? = some r ∧ (r = x ∨ euclid 3 x r < h)) points map

theorem addTreePoints_snoc {κ : Type} {lt : κ → κ → Bool} {dim : Nat} {rb : Nat → Nat → Bool} (xs : List (Nat → κ)) (x : Nat → κ)
    (s st : SmartTree κ) (h : addTreePoints lt dim rb xs s = some st) :
    addTreePoints lt dim rb (xs ++ [x]) s = addTreePoint lt dim rb st x := by
  induction xs generalizing s with
  | nil =>
    simp only [addTreePoints, Option.some.injEq] at h; subst h
    simp only [List.nil_append, addTreePoints]
    cases addTreePoint lt dim rb s x <;> rfl
  | cons y ys ih =>
    simp only [List.cons_append, addTreePoints] at h ⊢
    cases hy : addTreePoint lt dim rb s y with
    | none => rw [hy] at h; simp at h
    | some s' => rw [hy] at h; exact ih s' h

theorem addTreePoints_num {rb : Nat → Nat → Bool} {xs : List (Nat → ℝ)} {jp : Nat → Nat → ℝ} {jl jr : Nat → Nat} {st : SmartTree ℝ}
    (h : addTreePoints realLt 3 rb xs (SmartTree.empty jp jl jr) = some st) :
    st.Inv realLt 3 xs := by
  obtain ⟨st', e, hi⟩ := addTreePoints_inv (rb := rb) (lt := realLt) (dim := 3) (by norm_num) realLt_asymm xs (SmartTree.empty_inv jp jl jr)
  rw [h] at e; cases e; simpa using hi

theorem weldPoints_spec {rb : Nat → Nat → Bool} {hmin : ℝ} (xs done reps : List (Nat → ℝ)) (st : SmartTree ℝ) (map : List Nat)
    (e : addTreePoints realLt 3 rb reps (SmartTree.empty (fun _ _ => 0) id id) = some st)
    (h1 : PairwiseApart hmin reps) (h2 : Represents hmin done reps map) (h3 : map.length = 0 ↔ reps = []) (h4 : reps.Sublist done) :
    ∃ reps' st' map', weldPoints rb hmin xs (st, map) = some (st', map') ∧
      addTreePoints realLt 3 rb reps' (SmartTree.empty (fun _ _ => 0) id id) = some st' ∧
      PairwiseApart hmin reps' ∧ Represents hmin (done ++ xs) reps' map' ∧ reps'.Sublist (done ++ xs) := by
  induction xs generalizing done reps st map with
  | nil => exact ⟨reps, st, map, rfl, e, h1, by simpa using h2, by simpa using h4⟩
  | cons x xs ih =>
    have hi := addTreePoints_num e
    -- adding the point as a new representative
    have hadd : PairwiseApart hmin (reps ++ [x]) → ∃ st1, addTreePoint realLt 3 rb st x = some st1 ∧
        ∃ reps' st' map', weldPoints rb hmin xs (st1, map ++ [st.num]) = some (st', map') ∧
          addTreePoints realLt 3 rb reps' (SmartTree.empty (fun _ _ => 0) id id) = some st' ∧
          PairwiseApart hmin reps' ∧ Represents hmin (done ++ x :: xs) reps' map' ∧ reps'.Sublist (done ++ x :: xs) := by
      intro hap
      obtain ⟨st1, e1, hi1⟩ := addTreePoint_inv (rb := rb) (by norm_num) realLt_asymm hi x
      refine ⟨st1, e1, ?_⟩
      have := ih (done ++ [x]) (reps ++ [x]) st1 (map ++ [st.num]) (by rw [addTreePoints_snoc reps x _ _ e, e1]) hap ?_ (by simp) (List.Sublist.append h4 (List.Sublist.refl _))
      · simpa using this
      · refine List.rel_append (List.Forall₂.imp ?_ h2) (List.Forall₂.cons ?_ List.Forall₂.nil)
        · rintro a m ⟨r, hr, hh⟩
          refine ⟨r, ?_, hh⟩
          have := (List.getElem?_eq_some_iff.1 hr).1
          rw [List.getElem?_append_left this]; exact hr
        · refine ⟨x, ?_, Or.inl rfl⟩
          rw [hi.num]; simp
    simp only [weldPoints]
    by_cases hm : map.length = 0
    · rw [if_pos hm]
      have hr := h3.1 hm
      obtain ⟨st1, e1, h⟩ := hadd (by subst hr; simp [PairwiseApart])
      rw [e1]; exact h
    · rw [if_neg hm]
      have hne : reps ≠ [] := fun hh => hm (h3.2 hh)
      have hreal : RealTree { pts := st.pts, num := st.num, dim := 3, lt := realLt } st.links :=
        ⟨rfl, by norm_num, BuiltTree.inserted (dim := 3) realLt rb reps _ _ _ st e hne⟩
      obtain ⟨c, b, eq, hres⟩ := C06_closest_is_exhaustive _ _ hreal (fun _ => true) x false ⊤ le_top
      rw [eq]
      have hn0 : 0 < st.num := by rw [hi.num]; exact List.length_pos_of_ne_nil hne
      have hres' : c < st.num ∧ b = (euclid 3 x (st.pts c) : WithTop ℝ) ∧ ∀ q, q < st.num → euclid 3 x (st.pts c) ≤ euclid 3 x (st.pts q) := by
        rcases hres with ⟨a1, _, a3, _, a5⟩ | ⟨_, _, a3⟩
        · exact ⟨a1, a3, fun q hq => a5 q hq rfl⟩
        · exact absurd (a3 0 hn0 rfl) (by simp)
      obtain ⟨c1, c2, c3⟩ := hres'
      subst c2
      simp only [WithTop.coe_lt_coe]
      by_cases hlt : euclid 3 x (st.pts c) < hmin
      · rw [if_pos hlt]
        have := ih (done ++ [x]) reps st (map ++ [c]) e h1 ?_ (by simp [hne]) (h4.trans (List.sublist_append_left _ _))
        · simpa using this
        · refine List.rel_append h2 (List.Forall₂.cons ?_ List.Forall₂.nil)
          have hc : c < reps.length := by rw [← hi.num]; exact c1
          refine ⟨reps[c], List.getElem?_eq_getElem hc, Or.inr ?_⟩
          rw [← hi.pts c hc]; exact hlt
      · rw [if_neg hlt]
        obtain ⟨st1, e1, h⟩ := hadd (by
          unfold PairwiseApart
          rw [List.pairwise_append]
          refine ⟨h1, by simp, ?_⟩
          intro p hp q hq
          rw [List.mem_singleton.1 hq]
          obtain ⟨k, hk, rfl⟩ := List.getElem_of_mem hp
          rw [← hi.pts k hk]
          exact le_trans (not_lt.1 hlt) (c3 k (by rw [hi.num]; exact hk)))
        rw [e1]; exact h

/-! ### Removal of degenerate faces -/

theorem set_last_dropLast_perm (fs : List (List Nat)) (i : Nat) (h : i < fs.length) :
    ((fs.set i (fs[fs.length - 1]'(by omega))).dropLast).take i = fs.take i ∧
      (((fs.set i (fs[fs.length - 1]'(by omega))).dropLast).drop i).Perm (fs.drop (i + 1)) := by
  have hne : fs ≠ [] := by rintro rfl; simp at h
  obtain ⟨ini, last, rfl⟩ : ∃ ini last, fs = ini ++ [last] := ⟨fs.dropLast, fs.getLast hne, (List.dropLast_append_getLast hne).symm⟩
  have hl : (ini ++ [last])[(ini ++ [last]).length - 1]'(by simp) = last := by simp
  rw [hl]
  by_cases hi : i = ini.length
  · subst hi
    simp
  · have hi' : i < ini.length := by simp at h; omega
    rw [List.set_append_left _ _ hi']
    simp only [List.dropLast_concat]
    constructor
    · rw [List.take_set, List.set_eq_of_length_le (by simp), List.take_append_of_le_length (by omega)]
    · rw [List.drop_append_of_le_length (by omega), List.drop_eq_getElem_cons (l := ini.set i last) (by simpa using hi')]
      rw [List.getElem_set_self]
      have : (ini.set i last).drop (i + 1) = ini.drop (i + 1) := by
        rw [List.drop_set_of_lt (by omega)]
      rw [this]
      exact List.perm_append_singleton last _ |>.symm

theorem removeDegenerate_spec (i : Nat) (fs : List (List Nat)) :
    (removeDegenerate i fs).Perm (fs.take i ++ (fs.drop i).filter (fun f => !degenerateFace f)) := by
  induction i, fs using removeDegenerate.induct with
  | case1 i fs h hd ih =>
    rw [removeDegenerate, dif_pos h, if_pos hd]
    obtain ⟨h1, h2⟩ := set_last_dropLast_perm fs i h
    refine ih.trans ?_
    rw [h1]
    refine List.Perm.append_left _ ((h2.filter _).trans ?_)
    rw [List.drop_eq_getElem_cons h, List.filter_cons_of_neg (by simp [hd])]
  | case2 i fs h hd ih =>
    rw [removeDegenerate, dif_pos h, if_neg hd]
    refine ih.trans ?_
    rw [List.drop_eq_getElem_cons h, List.filter_cons_of_pos (by simpa using hd), List.take_succ_eq_append_getElem h, List.append_assoc]
    rfl
  | case3 i fs h =>
    rw [removeDegenerate, dif_neg h, List.take_of_length_le (by omega), List.drop_eq_nil_of_le (by omega)]
    simp

theorem degenerate_triangle (a b c : Nat) : degenerateFace [a, b, c] = false ↔ a ≠ b ∧ b ≠ c ∧ c ≠ a := by
  simp [degenerateFace, degenerateFrom, and_assoc]

theorem mapM_forall₂ {α β : Type} (f : α → Option β) (l : List α) (h : ∀ a ∈ l, ∃ b, f a = some b) :
    ∃ l', l.mapM f = some l' ∧ List.Forall₂ (fun a b => f a = some b) l l' := by
  induction l with
  | nil => exact ⟨[], rfl, List.Forall₂.nil⟩
  | cons a l ih =>
    obtain ⟨b, hb⟩ := h a (by simp)
    obtain ⟨l', e, hl'⟩ := ih (fun a ha => h a (by simp [ha]))
    exact ⟨b :: l', by simp [List.mapM_cons, hb, e], List.Forall₂.cons hb hl'⟩

/-- The face `g` of the new mesh represents the face `f` of the old one: corner by corner, the new corner
is an existing new point that equals the old corner's point or is within `h` of it. -/
def FaceRepresents (h : ℝ) (points points' : List (Nat → ℝ)) (f g : List Nat) : Prop :=
  List.Forall₂ (fun c m => ∃ x r, points[c]? = some x ∧ points'[m]? = some r ∧ (r = x ∨ euclid 3 x r < h)) f g

theorem forall₂_get {α β : Type} {R : α → β → Prop} {l : List α} {l' : List β} (h : List.Forall₂ R l l') {i : Nat} (hi : i < l.length) :
    ∃ b, l'[i]? = some b ∧ R l[i] b := by
  have hl := h.length_eq
  exact ⟨l'[i]'(by omega), List.getElem?_eq_getElem _, h.get hi (by omega)⟩

/-- **C17 (partial).** Welding with any tolerance `hmin` terminates without out-of-range access on any
mesh with valid corner indices.  The new points are a sub-list of the old ones, pairwise at least `hmin`
apart, and every old point has a representative that is itself or nearer than `hmin`.  When at least one
point was welded away the new faces are, up to order, exactly the old faces (re-mapped to representatives)
without the degenerate ones; otherwise the mesh is unchanged.
Missing from C17: when nothing is welded, degenerate input faces stay (`C17_degenerate_kept_false`). -/
theorem C17_weld_partial (rb : Nat → Nat → Bool) (hmin : ℝ) (points : List (Nat → ℝ)) (faces : List (List Nat))
    (hv : ∀ f ∈ faces, ∀ c ∈ f, c < points.length) :
    ∃ points' faces', weld rb hmin points faces = some (points', faces') ∧ points'.Sublist points ∧ PairwiseApart hmin points' ∧
      (∀ x ∈ points, ∃ r ∈ points', r = x ∨ euclid 3 x r < hmin) ∧
      (points'.length = points.length → points' = points ∧ faces' = faces) ∧
      (points'.length ≠ points.length → ∃ remapped, List.Forall₂ (FaceRepresents hmin points points') faces remapped ∧
        faces'.Perm (remapped.filter (fun f => !degenerateFace f))) := by
  obtain ⟨reps, st, map, e1, e2, ap, rep, sub⟩ := weldPoints_spec (rb := rb) points [] [] (SmartTree.empty (fun _ _ => 0) id id) []
    rfl List.Pairwise.nil List.Forall₂.nil (by simp) (List.Sublist.refl _)
  simp only [List.nil_append] at rep sub
  have hi := addTreePoints_num e2
  have hreps : (List.range st.num).map st.pts = reps := by
    apply List.ext_getElem
    · simp [hi.num]
    · intro k hk1 hk2
      simp only [List.getElem_map, List.getElem_range]
      exact hi.pts k hk2
  have hall : ∀ x ∈ points, ∃ r ∈ reps, r = x ∨ euclid 3 x r < hmin := by
    intro x hx
    obtain ⟨k, hk, rfl⟩ := List.getElem_of_mem hx
    obtain ⟨m, _, r, hr, hh⟩ := forall₂_get rep hk
    exact ⟨r, List.mem_of_getElem? hr, hh⟩
  by_cases hn : st.num = points.length
  · have heq : reps = points := sub.eq_of_length (by rw [← hi.num]; exact hn)
    refine ⟨points, faces, by simp only [weld, e1, hn, if_true], List.Sublist.refl _, heq ▸ ap, heq ▸ hall, fun _ => ⟨rfl, rfl⟩, fun h => absurd rfl h⟩
  · obtain ⟨fs, e3, h3⟩ := mapM_forall₂ (remapFace map) faces (by
      intro f hf
      obtain ⟨g, hg, _⟩ := mapM_forall₂ (fun c => map[c]?) f (by
        intro c hc
        have : c < map.length := by rw [← rep.length_eq]; exact hv f hf c hc
        exact ⟨map[c], List.getElem?_eq_getElem this⟩)
      exact ⟨g, hg⟩)
    refine ⟨reps, removeDegenerate 0 fs, by simp only [weld, e1, hn, if_false, e3, hreps], sub, ap, hall, ?_, fun _ => ⟨fs, ?_, ?_⟩⟩
    · intro h; rw [← hi.num] at h; exact absurd h hn
    · have hv' : ∀ f ∈ faces, ∀ g, remapFace map f = some g → FaceRepresents hmin points reps f g := by
        intro f hf g hg
        have hvf := hv f hf
        clear hf h3 e3
        induction f generalizing g with
        | nil => simp [remapFace] at hg; subst hg; exact List.Forall₂.nil
        | cons c f ih =>
          have hc := hvf c (by simp)
          obtain ⟨m, hm, r, hr, hh⟩ := forall₂_get rep hc
          simp only [remapFace, List.mapM_cons, hm] at hg
          cases hg' : f.mapM (fun c => map[c]?) with
          | none => rw [hg'] at hg; simp at hg
          | some g' =>
            rw [hg'] at hg
            simp at hg
            subst hg
            exact List.Forall₂.cons ⟨points[c], r, List.getElem?_eq_getElem hc, hr, hh⟩
              (ih g' hg' (fun c hc => hvf c (by simp [hc])))
      clear e3
      induction h3 with
      | nil => exact List.Forall₂.nil
      | cons hab _ ih =>
        exact List.Forall₂.cons (hv' _ (by simp) _ hab) (ih (fun f hf => hv f (by simp [hf])) (fun f hf => hv' f (by simp [hf])))
    · simpa using removeDegenerate_spec 0 fs

/-- Consequence: after a weld that removed a point no triangle with a repeated corner remains. -/
theorem C17_no_degenerate_after_weld (rb : Nat → Nat → Bool) (hmin : ℝ) (points : List (Nat → ℝ)) (faces : List (List Nat))
    (hv : ∀ f ∈ faces, ∀ c ∈ f, c < points.length) (points' : List (Nat → ℝ)) (faces' : List (List Nat))
    (e : weld rb hmin points faces = some (points', faces')) (hlt : points'.length ≠ points.length) :
    ∀ a b c, [a, b, c] ∈ faces' → a ≠ b ∧ b ≠ c ∧ c ≠ a := by
  obtain ⟨p', f', e', _, _, _, _, h⟩ := C17_weld_partial rb hmin points faces hv
  rw [e] at e'; cases e'
  obtain ⟨rm, _, hp⟩ := h hlt
  intro a b c hm
  have := (List.mem_filter.1 (hp.mem_iff.1 hm)).2
  exact (degenerate_triangle a b c).1 (by simpa using this)

/-- A one-point mesh. -/
def originPt : Nat → ℝ := fun _ => 0

/-- **C17 is false of the code** for a mesh in which no two points are near each other: a face with a
repeated corner survives welding. -/
theorem C17_degenerate_kept_false (rb : Nat → Nat → Bool) :
    weld rb 1 [originPt] [[0, 0, 0]] = some ([originPt], [[0, 0, 0]]) := by
  simp [weld, weldPoints, addTreePoint, SmartTree.empty]

-- non-vacuity: two coincident points and a third far away; the first two are merged
example (rb : Nat → Nat → Bool) : ∃ points' faces', weld rb 1 [originPt, originPt, fun _ => 5] [[0, 1, 2]] = some (points', faces') ∧
    points'.length ≠ 3 ∧ faces' = [] := by
  have hz : euclid 3 originPt originPt = 0 := by simp [euclid, originPt]
  obtain ⟨p', f', e, hsub, hap, hrep, h1, h2⟩ := C17_weld_partial rb 1 [originPt, originPt, fun _ => 5] [[0, 1, 2]] (by simp)
  have hne : p'.length ≠ 3 := by
    intro hl
    have := (h1 hl).1
    rw [this] at hap
    have := List.pairwise_cons.1 hap
    have := this.1 originPt (by simp)
    rw [hz] at this; norm_num at this
  refine ⟨p', f', e, hne, ?_⟩
  obtain ⟨rm, hf, hperm⟩ := h2 hne
  -- both first corners are represented by the only survivor near the origin
  cases hf with
  | cons hab hrest =>
    cases hrest
    rename_i g
    cases hab with
    | cons ha hab =>
      cases hab with
      | cons hb hab =>
        cases hab with
        | cons hc hab =>
          cases hab
          rename_i m1 m2 m3
          obtain ⟨x1, r1, hx1, hr1, hd1⟩ := ha
          obtain ⟨x2, r2, hx2, hr2, hd2⟩ := hb
          simp at hx1 hx2
          subst hx1; subst hx2
          have hlen : p'.length = 2 ∨ p'.length ≤ 1 := by
            have := hsub.length_le; simp at this; omega
          have hm12 : m1 = m2 := by
            have l1 := (List.getElem?_eq_some_iff.1 hr1).1
            have l2 := (List.getElem?_eq_some_iff.1 hr2).1
            by_contra hcne
            -- two different survivors both near the origin would be originPt and (5,5,5)
            have hmem : ∀ r ∈ p', r = originPt ∨ r = fun _ => 5 := by
              intro r hr; have := hsub.subset hr; simp at this; exact this
            have near : ∀ r, (r = originPt ∨ euclid 3 originPt r < 1) → (r = originPt ∨ r = fun _ => 5) → r = originPt := by
              intro r h1 h2
              rcases h2 with h2 | h2
              · exact h2
              · rcases h1 with h1 | h1
                · exact h1
                · exfalso
                  rw [h2] at h1
                  have : euclid 3 originPt (fun _ => 5) = Real.sqrt 75 := by
                    unfold euclid originPt
                    congr 1
                    simp [Finset.sum_range_succ]; norm_num
                  rw [this, Real.sqrt_lt' (by norm_num)] at h1
                  norm_num at h1
            have e1 := near r1 hd1 (hmem r1 (List.mem_of_getElem? hr1))
            have e2 := near r2 hd2 (hmem r2 (List.mem_of_getElem? hr2))
            subst e1
            have hg1 := (List.getElem?_eq_some_iff.1 hr1).2
            have hg2 := (List.getElem?_eq_some_iff.1 hr2).2
            rcases Nat.lt_or_gt_of_ne hcne with hlt | hlt
            · have := List.pairwise_iff_getElem.1 hap m1 m2 l1 l2 hlt
              rw [hg1, hg2, e2, hz] at this; norm_num at this
            · have := List.pairwise_iff_getElem.1 hap m2 m1 l2 l1 hlt
              rw [hg1, hg2, e2, hz] at this; norm_num at this
          subst hm12
          have : List.filter (fun f => !degenerateFace f) [[m1, m1, m3]] = [] := by
            simp [degenerateFace, degenerateFrom]
          rw [this] at hperm
          exact hperm.eq_nil

end VoroCrust
