import Verif.Model.Corners
import Verif.Props.Lipschitz
import Verif.Props.Weld

/-! # Property C38: corner spheres -/

namespace VoroCrust

/-- What the loop over the corners has stored: `ss` after the corners `done`. -/
structure CornersAre (q : CornerQueries) (tol rmax : ℝ) (done ss : List (Nat → ℝ)) : Prop where
  apart : PairwiseApart tol ss
  new : ∀ s ∈ ss, ∃ x ∈ done, newCorner q rmax x = some s
  all : ∀ x ∈ done, ∃ s ∈ ss, (∀ d, d < 3 → s d = x d) ∨ euclid 3 x s < tol

theorem newCorner_coords {q : CornerQueries} {rmax : ℝ} {x s : Nat → ℝ} (h : newCorner q rmax x = some s) {d : Nat} (hd : d < 3) : s d = x d := by
  unfold newCorner at h
  split at h
  · simp only [Option.some.injEq] at h
    rw [← h]; simp [upd, show d ≠ 3 by omega]
  · simp at h

theorem cornerLoop_spec {rb : Nat → Nat → Bool} {q : CornerQueries} {tol rmax : ℝ} (xs done ss : List (Nat → ℝ)) (hq : ∀ x ∈ xs, newCorner q rmax x ≠ none)
    (first : Bool) (t : SmartTree ℝ) (e : addTreePoints realLt 3 rb ss (SmartTree.empty (fun _ _ => 0) id id) = some t)
    (hf : first = true ↔ done = []) (h : CornersAre q tol rmax done ss) :
    ∃ ss' t', cornerLoop rb q tol rmax first xs t = some t' ∧ addTreePoints realLt 3 rb ss' (SmartTree.empty (fun _ _ => 0) id id) = some t' ∧
      CornersAre q tol rmax (done ++ xs) ss' := by
  induction xs generalizing done ss first t with
  | nil => exact ⟨ss, t, rfl, e, by simpa using h⟩
  | cons x xs ih =>
    have hi := addTreePoints_num e
    obtain ⟨s, hs⟩ := Option.ne_none_iff_exists'.1 (hq x (by simp))
    have hsx : ∀ y, euclid 3 s y = euclid 3 x y := fun y => euclid_congr (fun d hd => newCorner_coords hs hd) (fun _ _ => rfl)
    -- adding the sphere
    have hadd : PairwiseApart tol (ss ++ [s]) → ∃ t1, addTreePoint realLt 3 rb t s = some t1 ∧
        ∃ ss' t', cornerLoop rb q tol rmax false xs t1 = some t' ∧ addTreePoints realLt 3 rb ss' (SmartTree.empty (fun _ _ => 0) id id) = some t' ∧
          CornersAre q tol rmax (done ++ x :: xs) ss' := by
      intro hap
      obtain ⟨t1, e1, -⟩ := addTreePoint_inv (rb := rb) (by norm_num) realLt_asymm hi s
      refine ⟨t1, e1, ?_⟩
      have := ih (done ++ [x]) (ss ++ [s]) (fun y hy => hq y (by simp [hy])) false t1 (by rw [addTreePoints_snoc ss s _ _ e, e1]) (by simp) ⟨hap, ?_, ?_⟩
      · simpa using this
      · intro s' hs'
        rcases List.mem_append.1 hs' with h' | h'
        · obtain ⟨y, hy, hy'⟩ := h.new s' h'; exact ⟨y, by simp [hy], hy'⟩
        · rw [List.mem_singleton] at h'; subst h'; exact ⟨x, by simp, hs⟩
      · intro y hy
        rcases List.mem_append.1 hy with h' | h'
        · obtain ⟨s', hs', h''⟩ := h.all y h'; exact ⟨s', by simp [hs'], h''⟩
        · rw [List.mem_singleton] at h'; subst h'
          exact ⟨s, by simp, Or.inl fun d hd => newCorner_coords hs hd⟩
    simp only [cornerLoop]
    cases hfirst : first with
    | true =>
      have hd := hf.1 hfirst
      have hss : ss = [] := by
        rcases ss with _ | ⟨s', ss⟩
        · rfl
        · obtain ⟨y, hy, -⟩ := h.new s' (by simp); rw [hd] at hy; simp at hy
      obtain ⟨t1, e1, hh⟩ := hadd (by subst hss; simp [PairwiseApart])
      simp only [redundantCorner, if_true, hs, e1]; exact hh
    | false =>
      have hne : ss ≠ [] := by
        rintro rfl
        rcases done with _ | ⟨y, ys⟩
        · exact absurd (hf.2 rfl) (by simp [hfirst])
        · obtain ⟨s', hs', -⟩ := h.all y (by simp); simp at hs'
      have hreal : RealTree { pts := t.pts, num := t.num, dim := 3, lt := realLt } t.links :=
        ⟨rfl, by norm_num, BuiltTree.inserted (dim := 3) realLt rb ss _ _ _ t e hne⟩
      obtain ⟨c, b, eq, hres⟩ := C06_closest_is_exhaustive _ _ hreal (fun _ => true) x false ⊤ le_top
      have hn0 : 0 < t.num := by rw [hi.num]; exact List.length_pos_of_ne_nil hne
      have hres' : c < t.num ∧ b = (euclid 3 x (t.pts c) : WithTop ℝ) ∧ ∀ k, k < t.num → euclid 3 x (t.pts c) ≤ euclid 3 x (t.pts k) := by
        rcases hres with ⟨a1, _, a3, _, a5⟩ | ⟨_, _, a3⟩
        · exact ⟨a1, a3, fun k hk => a5 k hk rfl⟩
        · exact absurd (a3 0 hn0 rfl) (by simp)
      obtain ⟨c1, c2, c3⟩ := hres'
      subst c2
      simp only [redundantCorner, Bool.false_eq_true, if_false, eq, WithTop.coe_lt_coe]
      have hc : c < ss.length := by rw [← hi.num]; exact c1
      by_cases hlt : euclid 3 x (t.pts c) < tol
      · simp only [hlt, decide_true]
        have := ih (done ++ [x]) ss (fun y hy => hq y (by simp [hy])) false t e (by simp) ⟨h.apart, ?_, ?_⟩
        · simpa using this
        · intro s' hs'
          obtain ⟨y, hy, hy'⟩ := h.new s' hs'; exact ⟨y, by simp [hy], hy'⟩
        · intro y hy
          rcases List.mem_append.1 hy with h' | h'
          · exact h.all y h'
          · rw [List.mem_singleton] at h'; subst h'
            exact ⟨ss[c], List.getElem_mem _, Or.inr (by rw [← hi.pts c hc]; exact hlt)⟩
      · simp only [hlt, decide_false, hs]
        obtain ⟨t1, e1, hh⟩ := hadd (by
          unfold PairwiseApart
          rw [List.pairwise_append]
          refine ⟨h.apart, by simp, ?_⟩
          intro p hp r hr
          rw [List.mem_singleton.1 hr, hsx]
          obtain ⟨k, hk, rfl⟩ := List.getElem_of_mem hp
          rw [← hi.pts k hk]
          exact le_trans (not_lt.1 hlt) (c3 k (by rw [hi.num]; exact hk)))
        simp only [e1]; exact hh

theorem capAt_le (r : ℝ) (b : WithTop ℝ) : capAt r b ≤ r := by
  unfold capAt; split
  · exact le_rfl
  · split <;> linarith

theorem capAt_coe (r b : ℝ) : capAt r (b : WithTop ℝ) = if r > b then b else r := rfl

theorem limitCorners_spec {P : PointStore ℝ} {ln : Links} (h : SphereTree P ln) (m : Nat) (hm : m ≤ P.num) :
    ∃ Q, limitCorners ln P m = some Q ∧ SameBut P Q ∧ SphereTree Q ln ∧ (∀ i, radius Q i ≤ radius P i) ∧ (∀ i, m ≤ i → radius Q i = radius P i) ∧
      (∀ i j, i < m → j < P.num → j ≠ i → radius Q i ≤ 0.4 * euclid 3 (P.pts i) (P.pts j)) ∧
      ∀ i, i < m → radius Q i = radius P i ∨ ∃ j, j < P.num ∧ j ≠ i ∧ radius Q i = 0.4 * euclid 3 (P.pts i) (P.pts j) := by
  induction m with
  | zero => exact ⟨P, rfl, .refl P, h, fun _ => le_rfl, fun _ _ => rfl, fun i j hi => by omega, fun i hi => by omega⟩
  | succ m ih =>
    obtain ⟨Q, e, hs, ht, hle, hsame, hlim, hatt⟩ := ih (by omega)
    have hdimQ : Q.dim = 3 := ht.dim
    have hE : ∀ i j, euclid 3 (Q.pts i) (Q.pts j) = euclid 3 (P.pts i) (P.pts j) := fun i j => by
      have := hs.dist h.dim i j; rwa [distance_eq, distance_eq] at this
    obtain ⟨c, b, eq, hres⟩ := C06_closest_is_exhaustive Q ln ht.tree (fun k => decide (k ≠ m)) (Q.pts m) false ⊤ le_top
    set v := capAt (radius Q m) (scaleSz b) with hv
    have hvle : v ≤ radius Q m := capAt_le _ _
    have hnn : ∀ i, i < P.num → 0 ≤ radius Q i := fun i hi => by
      rw [ht.radius]; exact ht.nonneg i (by rw [hs.num]; exact hi)
    -- the value written
    have hval : 0 ≤ v ∧ (∀ j, j < P.num → j ≠ m → v ≤ 0.4 * euclid 3 (P.pts m) (P.pts j)) ∧
        (v = radius Q m ∨ ∃ j, j < P.num ∧ j ≠ m ∧ v = 0.4 * euclid 3 (P.pts m) (P.pts j)) := by
      rcases hres with ⟨a1, a2, a3, a4, a5⟩ | ⟨a1, a2, a3⟩
      · rw [hdimQ] at a3 a5
        rw [a3] at hv
        have hsc : scaleSz (euclid 3 (Q.pts m) (Q.pts c) : WithTop ℝ) = ((0.4 * euclid 3 (Q.pts m) (Q.pts c) : ℝ) : WithTop ℝ) := rfl
        rw [hsc, capAt_coe, hE] at hv
        have hcm : c ≠ m := by simpa using a2
        have hcn : c < P.num := by rw [← hs.num]; exact a1
        have hd0 := euclid_nonneg 3 (P.pts m) (P.pts c)
        have hmin : ∀ j, j < P.num → j ≠ m → euclid 3 (P.pts m) (P.pts c) ≤ euclid 3 (P.pts m) (P.pts j) := fun j hj hjm => by
          have := a5 j (by rw [hs.num]; exact hj) (by simpa using hjm)
          rwa [hE, hE] at this
        by_cases hgt : radius Q m > 0.4 * euclid 3 (P.pts m) (P.pts c)
        · rw [if_pos hgt] at hv
          refine ⟨by rw [hv]; linarith, fun j hj hjm => ?_, Or.inr ⟨c, hcn, hcm, hv⟩⟩
          rw [hv]; have := hmin j hj hjm; linarith
        · rw [if_neg hgt] at hv
          refine ⟨by rw [hv]; exact hnn m (by omega), fun j hj hjm => ?_, Or.inl hv⟩
          rw [hv]; have := hmin j hj hjm; linarith
      · have hno : ∀ j, j < P.num → j ≠ m → False := fun j hj hjm => by
          have := a3 j (by rw [hs.num]; exact hj) (by simpa using hjm)
          simp at this
        rw [a2] at hv
        have hv' : v = radius Q m := hv
        exact ⟨by rw [hv']; exact hnn m (by omega), fun j hj hjm => (hno j hj hjm).elim, Or.inl hv'⟩
    have hs' := hs.trans (sameBut_setAttr Q m v)
    refine ⟨setAttr Q m 0 v, by simp only [limitCorners, e, eq]; rfl, hs', ?_, ?_, ?_, ?_, ?_⟩
    · refine ⟨⟨ht.tree.1, ht.tree.2.1, BuiltTree.attributed m 0 v ht.tree.2.2⟩, ht.dim, fun i hi => ?_⟩
      have hr : (setAttr Q m 0 v).pts i 3 = radius (setAttr Q m 0 v) i := by
        show _ = (setAttr Q m 0 v).pts i Q.dim
        rw [hdimQ]
      rw [hr, radius_setAttr]
      split
      · exact hval.1
      · exact hnn i (by rw [← hs'.num]; exact hi)
    · intro i
      rw [radius_setAttr]
      split
      · next hh => subst hh; exact hvle.trans (hle _)
      · exact hle i
    · intro i hi
      rw [radius_setAttr, if_neg (by omega)]; exact hsame i (by omega)
    · intro i j hi hj hji
      rw [radius_setAttr]
      split
      · next hh => subst hh; exact hval.2.1 j hj hji
      · exact hlim i j (by omega) hj hji
    · intro i hi
      rw [radius_setAttr]
      split
      · next hh =>
        subst hh
        rw [hsame i (le_refl _)] at hval
        exact hval.2.2
      · exact hatt i (by omega)

/-- The radius a corner at `x` would have alone: 0.4 times the distance to the nearest non-smooth surface or edge point, at most the user maximum and the prescribed size. -/
def IsCornerSize (q : CornerQueries) (rmax : ℝ) (x : Nat → ℝ) (r : ℝ) : Prop :=
  r ≤ rmax ∧ (∀ h : ℝ, q.surf x = some (h : WithTop ℝ) → r ≤ 0.4 * h) ∧ (∀ h : ℝ, q.edge x = some (h : WithTop ℝ) → r ≤ 0.4 * h) ∧
    ∀ h : ℝ, q.size x = some (h : WithTop ℝ) → r ≤ h

theorem cornerRadius_le (surf edge size : WithTop ℝ) (rmax : ℝ) :
    cornerRadius surf edge size rmax ≤ rmax ∧ (∀ h : ℝ, surf = (h : WithTop ℝ) → cornerRadius surf edge size rmax ≤ 0.4 * h) ∧
      (∀ h : ℝ, edge = (h : WithTop ℝ) → cornerRadius surf edge size rmax ≤ 0.4 * h) ∧ ∀ h : ℝ, size = (h : WithTop ℝ) → cornerRadius surf edge size rmax ≤ h := by
  set r : ℝ := match min (scaleSz surf) (scaleSz edge) with
    | none => rmax
    | some r => if r > rmax then rmax else r with hr
  have hc : cornerRadius surf edge size rmax = capAt r size := rfl
  have h1 : r ≤ rmax := by
    rw [hr]; split
    · exact le_rfl
    · split <;> linarith
  have h2 : ∀ h : ℝ, min (scaleSz surf) (scaleSz edge) ≤ (h : WithTop ℝ) → r ≤ h := by
    intro h hh
    rw [hr]
    split
    · next e => rw [e] at hh; exact absurd (top_le_iff.1 hh) (WithTop.coe_ne_top)
    · next a e =>
      rw [e] at hh
      have : a ≤ h := WithTop.coe_le_coe.1 hh
      split <;> linarith
  have hle := capAt_le r size
  rw [hc]
  refine ⟨by linarith, fun h e => ?_, fun h e => ?_, fun h e => ?_⟩
  · subst e; exact hle.trans (h2 _ (min_le_left _ _))
  · subst e; exact hle.trans (h2 _ (min_le_right _ _))
  · subst e; rw [capAt_coe]; split <;> linarith

theorem le_capAt {v r : ℝ} {b : WithTop ℝ} (h1 : v ≤ r) (h2 : ∀ h : ℝ, b = (h : WithTop ℝ) → v ≤ h) : v ≤ capAt r b := by
  cases b with
  | top => exact h1
  | coe b => rw [capAt_coe]; have := h2 b rfl; split <;> assumption

theorem le_scaleSz {v : ℝ} {b : WithTop ℝ} (h : ∀ a : ℝ, b = (a : WithTop ℝ) → v ≤ 0.4 * a) : (v : WithTop ℝ) ≤ scaleSz b := by
  cases b with
  | top => exact le_top
  | coe b => exact WithTop.coe_le_coe.2 (h b rfl)

/-- The radius is the largest number below the limits. -/
theorem le_cornerRadius {surf edge size : WithTop ℝ} {rmax v : ℝ} (h0 : v ≤ rmax) (h1 : ∀ h : ℝ, surf = (h : WithTop ℝ) → v ≤ 0.4 * h)
    (h2 : ∀ h : ℝ, edge = (h : WithTop ℝ) → v ≤ 0.4 * h) (h3 : ∀ h : ℝ, size = (h : WithTop ℝ) → v ≤ h) : v ≤ cornerRadius surf edge size rmax := by
  have hm : (v : WithTop ℝ) ≤ min (scaleSz surf) (scaleSz edge) := le_min (le_scaleSz h1) (le_scaleSz h2)
  unfold cornerRadius
  refine le_capAt ?_ h3
  split
  · exact h0
  · next a e =>
    rw [e] at hm
    have : v ≤ a := WithTop.coe_le_coe.1 hm
    split <;> assumption

theorem cornerRadius_nonneg {surf edge size : WithTop ℝ} {rmax : ℝ} (h0 : 0 ≤ rmax) (h1 : 0 ≤ surf) (h2 : 0 ≤ edge) (h3 : 0 ≤ size) :
    0 ≤ cornerRadius surf edge size rmax := by
  have hs : ∀ h : WithTop ℝ, 0 ≤ h → 0 ≤ scaleSz h := by
    intro h hh
    cases h with
    | top => exact le_top
    | coe a =>
      have : (0 : ℝ) ≤ a := WithTop.coe_le_coe.1 hh
      exact WithTop.coe_le_coe.2 (by linarith : (0 : ℝ) ≤ 0.4 * a)
  have hm : 0 ≤ min (scaleSz surf) (scaleSz edge) := le_min (hs _ h1) (hs _ h2)
  unfold cornerRadius
  have hr : 0 ≤ (match min (scaleSz surf) (scaleSz edge) with
    | none => rmax
    | some r => if r > rmax then rmax else r) := by
    split
    · exact h0
    · next a e =>
      rw [e] at hm
      have : (0 : ℝ) ≤ a := WithTop.coe_le_coe.1 hm
      split <;> assumption
  have hcap : ∀ r : ℝ, 0 ≤ r → 0 ≤ capAt r size := by
    intro r h
    cases size with
    | top => exact h
    | coe b =>
      have : (0 : ℝ) ≤ b := WithTop.coe_le_coe.1 h3
      rw [capAt_coe]
      split <;> assumption
  exact hcap _ hr

/-- **C38.** For every list of corners whose clearance queries are defined and non-negative, every tolerance, maximum radius and `L ≥ 0`, corner sphere generation is
defined.  Afterwards every sphere is centred at a given corner and every corner is the centre of a sphere or within the tolerance of one; centres are pairwise at
least the tolerance apart; radii are non-negative, at most the user maximum, the prescribed size and 0.4 times the clearance at the corner; the radii of two spheres
sum to at most 0.8 times the distance of their centres (so their interiors are disjoint); the radii satisfy the Lipschitz condition; and they are the largest radii that do all of this. -/
theorem C38_corner_spheres (rb : Nat → Nat → Bool) (q : CornerQueries) (tol rmax L : ℝ) (corners : List (Nat → ℝ)) (hL : 0 ≤ L) (hr : 0 ≤ rmax)
    (hq : ∀ x ∈ corners, ∃ s e z, q.surf x = some s ∧ q.edge x = some e ∧ q.size x = some z ∧ 0 ≤ s ∧ 0 ≤ e ∧ 0 ≤ z) :
    ∃ Q ln, cornerSpheres rb q tol rmax L corners = some (Q, ln) ∧ (corners ≠ [] → SphereTree Q ln) ∧
      (∀ i, i < Q.num → ∃ x ∈ corners, (∀ d, d < 3 → Q.pts i d = x d) ∧ 0 ≤ Q.pts i 3 ∧ IsCornerSize q rmax x (Q.pts i 3)) ∧
      (∀ x ∈ corners, ∃ i, i < Q.num ∧ ((∀ d, d < 3 → Q.pts i d = x d) ∨ euclid 3 x (Q.pts i) < tol)) ∧
      (∀ i j, i < Q.num → j < Q.num → i ≠ j → tol ≤ euclid 3 (Q.pts i) (Q.pts j) ∧ Q.pts i 3 + Q.pts j 3 ≤ 0.8 * euclid 3 (Q.pts i) (Q.pts j)) ∧
      LipschitzRadii Q L ∧
      ∀ f : Nat → ℝ, (∀ i, i < Q.num → ∀ x ∈ corners, (∀ d, d < 3 → Q.pts i d = x d) → IsCornerSize q rmax x (f i)) →
        (∀ i j, i < Q.num → j < Q.num → i ≠ j → f i ≤ 0.4 * euclid 3 (Q.pts i) (Q.pts j)) →
        (∀ i j, i < Q.num → j < Q.num → f i ≤ f j + L * euclid 3 (Q.pts i) (Q.pts j)) → ∀ i, i < Q.num → f i ≤ Q.pts i 3 := by
  have hdef : ∀ x ∈ corners, newCorner q rmax x ≠ none := fun x hx => by
    obtain ⟨s, e, z, h1, h2, h3, -⟩ := hq x hx
    simp [newCorner, h1, h2, h3]
  obtain ⟨ss, t, e1, e2, hC⟩ := cornerLoop_spec (rb := rb) (tol := tol) corners [] [] hdef true (SmartTree.empty (fun _ _ => 0) id id) rfl (by simp)
    ⟨by simp [PairwiseApart], by simp, by simp⟩
  rw [List.nil_append] at hC
  have hi := addTreePoints_num e2
  set P : PointStore ℝ := { pts := t.pts, num := t.num, dim := 3, lt := realLt } with hP
  have hPpts : ∀ k (hk : k < ss.length), P.pts k = ss[k] := hi.pts
  have hsize : ∀ s ∈ ss, ∃ x ∈ corners, (∀ d, d < 3 → s d = x d) ∧ 0 ≤ s 3 ∧ IsCornerSize q rmax x (s 3) ∧
      ∀ v, IsCornerSize q rmax x v → v ≤ s 3 := by
    intro s hs
    obtain ⟨x, hx, hn⟩ := hC.new s hs
    obtain ⟨a, b, z, h1, h2, h3, p1, p2, p3⟩ := hq x hx
    have hs3 : s 3 = cornerRadius a b z rmax := by
      simp only [newCorner, h1, h2, h3, Option.some.injEq] at hn
      rw [← hn]; simp [upd]
    obtain ⟨r1, r2, r3, r4⟩ := cornerRadius_le a b z rmax
    refine ⟨x, hx, fun d hd => newCorner_coords hn hd, by rw [hs3]; exact cornerRadius_nonneg hr p1 p2 p3, ?_⟩
    rw [hs3]
    refine ⟨⟨r1, fun h hh => r2 h ?_, fun h hh => r3 h ?_, fun h hh => r4 h ?_⟩, fun v hv => le_cornerRadius hv.1 (fun h hh => hv.2.1 h (by rw [h1, hh]))
      (fun h hh => hv.2.2.1 h (by rw [h2, hh])) (fun h hh => hv.2.2.2 h (by rw [h3, hh]))⟩
    · rw [h1] at hh; exact Option.some.inj hh
    · rw [h2] at hh; exact Option.some.inj hh
    · rw [h3] at hh; exact Option.some.inj hh
  rcases eq_or_ne ss [] with hss | hss
  · -- no corners
    have hn0 : t.num = 0 := by rw [hi.num, hss]; rfl
    have hc0 : corners = [] := by
      rcases corners with _ | ⟨x, xs⟩
      · rfl
      · obtain ⟨s, hs, -⟩ := hC.all x (by simp); rw [hss] at hs; simp at hs
    obtain ⟨Q, sh, e3, hsame, hlip, -⟩ := C26_lipschitz_brute L hL P rfl 2 (le_refl _)
    have hQ0 : Q.num = 0 := by rw [hsame.num]; exact hn0
    refine ⟨Q, t.links, ?_, fun h => absurd hc0 h, fun i hi => by omega, fun x hx => by rw [hc0] at hx; simp at hx, fun i j hi => by omega, hlip,
      fun f _ _ _ i hi => by omega⟩
    have : limitCorners t.links P t.num = some P := by rw [hn0]; rfl
    simp only [cornerSpheres, e1, ← hP, this, e3]
  · have hreal : RealTree P t.links := ⟨rfl, by norm_num, BuiltTree.inserted (dim := 3) realLt rb ss _ _ _ t e2 hss⟩
    have hsp : SphereTree P t.links := by
      refine ⟨hreal, rfl, fun i hi' => ?_⟩
      have hk : i < ss.length := by rw [← hi.num]; exact hi'
      rw [hPpts i hk]
      obtain ⟨x, -, -, h0, -⟩ := hsize ss[i] (List.getElem_mem _)
      exact h0
    obtain ⟨Q1, e3, hs1, ht1, hle1, -, hlim1, hatt1⟩ := limitCorners_spec hsp P.num (le_refl _)
    obtain ⟨Q, sh, e4, hsame, hlip, hle, hmax, -, htree⟩ := C26_lipschitz_brute L hL Q1 ht1.dim 2 (le_refl _)
    have hst := hs1.trans hsame
    have hQn : Q.num = ss.length := by rw [hst.num]; exact hi.num
    have htQ := htree _ ht1
    have hr1 : ∀ i, i < P.num → Q.pts i 3 ≤ Q1.pts i 3 := fun i hi' => hle i (by rw [hs1.num]; exact hi')
    have hr2 : ∀ i, Q1.pts i 3 ≤ P.pts i 3 := fun i => by
      have := hle1 i
      rwa [ht1.radius, hsp.radius] at this
    have hcoord : ∀ i d, d < 3 → Q.pts i d = P.pts i d := fun i d hd => hst.pts i d (by show d ≠ 3; omega)
    have hEQ : ∀ i j, euclid 3 (Q.pts i) (Q.pts j) = euclid 3 (P.pts i) (P.pts j) := fun i j =>
      euclid_congr (fun d hd => hcoord i d hd) (fun d hd => hcoord j d hd)
    refine ⟨Q, t.links, ?_, fun _ => htQ, ?_, ?_, ?_, hlip, ?_⟩
    · simp only [cornerSpheres, e1, ← hP]
      have e3' : limitCorners t.links P t.num = some Q1 := e3
      simp only [e3', e4]
    · intro i hi'
      have hk : i < ss.length := by omega
      obtain ⟨x, hx, hxc, -, hsz, -⟩ := hsize ss[i] (List.getElem_mem _)
      have hb : Q.pts i 3 ≤ ss[i] 3 := by
        rw [← hPpts i hk]
        exact (hr1 i (by rw [← hst.num]; exact hi')).trans (hr2 i)
      refine ⟨x, hx, fun d hd => by rw [hcoord i d hd, hPpts i hk]; exact hxc d hd, htQ.nonneg i hi', ?_⟩
      obtain ⟨a, b, c, d⟩ := hsz
      exact ⟨hb.trans a, fun h hh => hb.trans (b h hh), fun h hh => hb.trans (c h hh), fun h hh => hb.trans (d h hh)⟩
    · intro x hx
      obtain ⟨s, hs, hor⟩ := hC.all x hx
      obtain ⟨k, hk, rfl⟩ := List.getElem_of_mem hs
      refine ⟨k, by omega, ?_⟩
      rcases hor with hh | hh
      · exact Or.inl fun d hd => by rw [hcoord k d hd, hPpts k hk]; exact hh d hd
      · refine Or.inr ?_
        rw [← hPpts k hk] at hh
        rwa [euclid_congr (fun _ _ => rfl) (fun d hd => hcoord k d hd)]
    · have key : ∀ i j, i < Q.num → j < Q.num → i ≠ j → Q.pts i 3 ≤ 0.4 * euclid 3 (Q.pts i) (Q.pts j) := fun i j hi' hj hne => by
        have hip : i < P.num := by rw [← hst.num]; exact hi'
        have := hlim1 i j hip (by rw [← hst.num]; exact hj) hne.symm
        rw [ht1.radius] at this
        rw [hEQ]
        exact (hr1 i hip).trans this
      intro i j hi' hj hne
      constructor
      · rw [hEQ]
        have hap := hC.apart
        unfold PairwiseApart at hap
        rw [List.pairwise_iff_getElem] at hap
        rcases Nat.lt_or_gt_of_ne hne with hlt | hlt
        · have := hap i j (by omega) (by omega) hlt
          rw [euclid_comm, hPpts i (by omega), hPpts j (by omega)]; exact this
        · have := hap j i (by omega) (by omega) hlt
          rw [hPpts i (by omega), hPpts j (by omega)]; exact this
      · have h1 := key i j hi' hj hne
        have h2 := key j i hj hi' hne.symm
        rw [euclid_comm 3 (Q.pts j)] at h2
        linarith
    · intro f hf1 hf2 hf3 i hi'
      have hPQ : P.num = Q.num := hst.num.symm
      have hE1 : ∀ i j, euclid 3 (Q1.pts i) (Q1.pts j) = euclid 3 (Q.pts i) (Q.pts j) := fun i j =>
        euclid_congr (fun d hd => (hsame.pts i d (by rw [ht1.dim]; omega)).symm) (fun d hd => (hsame.pts j d (by rw [ht1.dim]; omega)).symm)
      refine hmax f (fun k hk => ?_) (fun k l hk hl => ?_) i (by rw [← hsame.num]; exact hi')
      · have hkQ : k < Q.num := by rw [hsame.num]; exact hk
        have hkP : k < P.num := by rw [hPQ]; exact hkQ
        have hks : k < ss.length := by omega
        rcases hatt1 k hkP with hh | ⟨j, hj, hjk, hh⟩
        · rw [ht1.radius, hsp.radius, hPpts k hks] at hh
          rw [hh]
          obtain ⟨x, hx, hxc, -, -, hm⟩ := hsize ss[k] (List.getElem_mem _)
          exact hm _ (hf1 k hkQ x hx fun d hd => by rw [hcoord k d hd, hPpts k hks]; exact hxc d hd)
        · rw [ht1.radius, ← hEQ] at hh
          rw [hh]; exact hf2 k j hkQ (by rw [← hPQ]; exact hj) hjk.symm
      · rw [hE1]; exact hf3 k l (by rw [hsame.num]; exact hk) (by rw [hsame.num]; exact hl)

-- non-vacuity: three corners, one of them redundant, no sizing function, clearance 10
example : ∃ Q ln, cornerSpheres (fun _ _ => false) ⟨fun _ => some (10 : ℝ), fun _ => some ⊤, fun _ => some ⊤⟩ 0.01 3 0.5
    [mkSphere 0 0 0 0, mkSphere 1 0 0 0, mkSphere 0 0 0 0] = some (Q, ln) ∧ SphereTree Q ln ∧ ∀ i, i < Q.num → Q.pts i 3 ≤ 3 := by
  obtain ⟨Q, ln, e, h1, h2, -⟩ := C38_corner_spheres (fun _ _ => false) ⟨fun _ => some (10 : ℝ), fun _ => some ⊤, fun _ => some ⊤⟩ 0.01 3 0.5
    [mkSphere 0 0 0 0, mkSphere 1 0 0 0, mkSphere 0 0 0 0] (by norm_num) (by norm_num)
    (fun x _ => ⟨(10 : ℝ), ⊤, ⊤, rfl, rfl, rfl, WithTop.coe_le_coe.2 (by norm_num), le_top, le_top⟩)
  refine ⟨Q, ln, e, h1 (by simp), fun i hi => ?_⟩
  obtain ⟨x, -, -, -, hs⟩ := h2 i hi
  exact hs.1

end VoroCrust
