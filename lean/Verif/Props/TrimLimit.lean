import Verif.Props.CellComplete
import Mathlib.Analysis.SpecificLimits.Basic

/-!
# `trim_vertex` on nearby polytopes

Two polytopes with the same graph of corners and almost the same places of the corners are cut in the same way, when every corner is well beyond the plane or not beyond it at all.
-/

namespace VoroCrust

open Classical Filter Topology

/-- A coordinate of a corner. -/
def posAt (P : Poly) (c : Nat) : Nat → ℝ := match P.pos c with
  | some v => v
  | none => fun _ => 0

theorem posAt_eq {P : Poly} {c : Nat} {v : Nat → ℝ} (h : P.pos c = some v) : posAt P c = v := by unfold posAt; rw [h]

theorem posAt_congr {P Q : Poly} {c : Nat} (h : P.pos c = Q.pos c) : posAt P c = posAt Q c := by unfold posAt; rw [h]

/-- The same graph of corners. -/
structure Twin (P Q : Poly) : Prop where
  num : Q.num = P.num
  cap : Q.cap = P.cap
  nbr : Q.nbr = P.nbr
  wall : Q.wall = P.wall
  live : ∀ c, Q.pos c = none ↔ P.pos c = none

theorem Twin.pos {P Q : Poly} (h : Twin P Q) {c : Nat} {v : Nat → ℝ} (hv : P.pos c = some v) : Q.pos c = some (posAt Q c) := by
  cases e : Q.pos c with
  | none => rw [(h.live c).1 e] at hv; simp at hv
  | some u => rw [posAt_eq e]

theorem Twin.setNbr {P Q : Poly} (h : Twin P Q) (c i : Nat) (v : Option Nat) : Twin (P.setNbr c i v) (Q.setNbr c i v) :=
  ⟨h.num, h.cap, by unfold Poly.setNbr; rw [h.nbr], h.wall, h.live⟩

theorem Twin.slot {P Q : Poly} (h : Twin P Q) (c : Nat) (p : Option Nat → Bool) : Q.slot c p = P.slot c p := by unfold Poly.slot; rw [h.nbr]

theorem Twin.redirect {P Q : Poly} (h : Twin P Q) (d c k : Nat) : Twin (P.redirect d c k) (Q.redirect d c k) := by
  unfold Poly.redirect
  rw [h.slot]
  cases P.slot d (fun o => o == some c) with
  | none => exact h
  | some j => exact h.setNbr d j _

theorem Twin.delete {P Q : Poly} (h : Twin P Q) (c : Nat) : Twin (P.delete c) (Q.delete c) := by
  refine ⟨h.num, h.cap, by unfold Poly.delete; rw [h.nbr], by unfold Poly.delete; rw [h.wall], fun a => ?_⟩
  unfold Poly.delete upd
  by_cases ha : a = c <;> simp [ha, h.live]

theorem Twin.link {P Q : Poly} (h : Twin P Q) (lo i : Nat) : Twin (P.link lo i) (Q.link lo i) := by
  unfold Poly.link
  rw [h.slot, h.num]
  cases P.slot i (fun o => o.isSome) with
  | none => exact h
  | some j => exact (h.setNbr _ _ _).setNbr _ _ _

theorem Twin.linkRing {lo k i : Nat} {P Q : Poly} (h : Twin P Q) : Twin (linkRing lo k i P) (linkRing lo k i Q) := by
  induction k generalizing i P Q with
  | zero => exact h
  | succ k ih => exact ih (h.link lo i)

theorem link_pos (P : Poly) (lo i : Nat) : (P.link lo i).pos = P.pos := by
  unfold Poly.link
  cases P.slot i (fun o => o.isSome) <;> rfl

theorem linkRing_pos {lo k i : Nat} {P : Poly} : (linkRing lo k i P).pos = P.pos := by
  induction k generalizing i P with
  | zero => rfl
  | succ k ih => rw [linkRing, ih, link_pos]

theorem redirect_pos (P : Poly) (d c k : Nat) : (P.redirect d c k).pos = P.pos := by
  unfold Poly.redirect
  cases P.slot d (fun o => o == some c) <;> rfl

/-- Polytopes with the graph of `P` whose corners tend to those of `P`. -/
structure Near (P : Poly) (Q : Nat → Poly) : Prop where
  twin : ∀ᶠ k in atTop, Twin P (Q k)
  lim : ∀ c v, P.pos c = some v → ∀ d, Tendsto (fun k => posAt (Q k) c d) atTop (𝓝 (v d))

theorem side_tendsto {xo n v : Nat → ℝ} {y u : Nat → Nat → ℝ} (hx : ∀ d, Tendsto (fun k => y k d) atTop (𝓝 (xo d))) (hu : ∀ d, Tendsto (fun k => u k d) atTop (𝓝 (v d))) :
    Tendsto (fun k => side (y k) n (u k)) atTop (𝓝 (side xo n v)) := by
  unfold side
  exact ((((hu 0).sub (hx 0)).const_mul _).add (((hu 1).sub (hx 1)).const_mul _)).add (((hu 2).sub (hx 2)).const_mul _)

theorem Near.side {P : Poly} {Q : Nat → Poly} (h : Near P Q) {xo n v : Nat → ℝ} {y : Nat → Nat → ℝ} (hx : ∀ d, Tendsto (fun k => y k d) atTop (𝓝 (xo d))) {c : Nat} (hv : P.pos c = some v) :
    Tendsto (fun k => side (y k) n (posAt (Q k) c)) atTop (𝓝 (side xo n v)) := side_tendsto hx (h.lim c v hv)

theorem Near.delete {P : Poly} {Q : Nat → Poly} (h : Near P Q) (c : Nat) : Near (P.delete c) (fun k => (Q k).delete c) := by
  refine ⟨h.twin.mono fun k hk => hk.delete c, fun a v hv d => ?_⟩
  by_cases ha : a = c
  · subst ha; simp [Poly.delete, upd] at hv
  · have e : ∀ R : Poly, (R.delete c).pos a = R.pos a := fun R => by simp [Poly.delete, upd, ha]
    rw [e] at hv
    have e' : (fun k => posAt ((Q k).delete c) a d) = fun k => posAt (Q k) a d := by
      funext k; rw [posAt_congr (e (Q k))]
    rw [e']
    exact h.lim a v hv d

theorem Near.linkRing {P : Poly} {Q : Nat → Poly} (h : Near P Q) (lo m i : Nat) : Near (VoroCrust.linkRing lo m i P) (fun k => VoroCrust.linkRing lo m i (Q k)) := by
  refine ⟨h.twin.mono fun k hk => hk.linkRing, fun a v hv d => ?_⟩
  rw [linkRing_pos] at hv
  have e' : (fun k => posAt (VoroCrust.linkRing lo m i (Q k)) a d) = fun k => posAt (Q k) a d := by
    funext k; rw [posAt_congr (congrFun linkRing_pos a)]
  rw [e']
  exact h.lim a v hv d

/-- All three slots are used. -/
def Poly.Whole (P : Poly) (c : Nat) : Prop := P.nbr c 0 ≠ none ∧ P.nbr c 1 ≠ none ∧ P.nbr c 2 ≠ none

/-- The state of a run of `trim_vertex` on `P` and on the polytopes near it: `N` and `X` are the number and the places of the corners at the beginning. -/
structure Lock (N : Nat) (X : Nat → Option (Nat → ℝ)) (P : Poly) (Q : Nat → Poly) : Prop extends Near P Q where
  old : ∀ c v, c < N → P.pos c = some v → X c = some v
  whole : ∀ c, P.Whole c → c < N
  irr : ∀ c i, i < 3 → P.nbr c i ≠ some c
  num : N ≤ P.num

/-- The same outcomes. -/
def OLock (N : Nat) (X : Nat → Option (Nat → ℝ)) : Option Poly → (Nat → Option Poly) → Prop
  | none, q => ∀ᶠ k in atTop, q k = none
  | some R, q => ∃ Q, (∀ᶠ k in atTop, q k = some (Q k)) ∧ Lock N X R Q

variable {N : Nat} {X : Nat → Option (Nat → ℝ)}

theorem OLock.congr {o : Option Poly} {q q' : Nat → Option Poly} (h : OLock N X o q) (e : ∀ᶠ k in atTop, q' k = q k) : OLock N X o q' := by
  cases o with
  | none =>
    have h' : ∀ᶠ k in atTop, q k = none := h
    exact (e.and h').mono fun k hk => hk.1.trans hk.2
  | some R =>
    obtain ⟨Q, h1, h2⟩ := h
    exact ⟨Q, (e.and h1).mono fun k hk => hk.1.trans hk.2, h2⟩

theorem Lock.setNone {P : Poly} {Q : Nat → Poly} (h : Lock N X P Q) (c i : Nat) : Lock N X (P.setNbr c i none) (fun k => (Q k).setNbr c i none) := by
  have key : ∀ a j, (P.setNbr c i none).nbr a j = none ∨ (P.setNbr c i none).nbr a j = P.nbr a j := fun a j => by
    show (if a = c ∧ j = i then none else P.nbr a j) = none ∨ (if a = c ∧ j = i then none else P.nbr a j) = P.nbr a j
    by_cases hq : a = c ∧ j = i
    · exact Or.inl (if_pos hq)
    · exact Or.inr (if_neg hq)
  refine ⟨⟨h.twin.mono fun k hk => hk.setNbr c i none, h.lim⟩, h.old, fun a ha => h.whole a ?_, fun a j hj3 => ?_, h.num⟩
  · have hh : ∀ j, (P.setNbr c i none).nbr a j ≠ none → P.nbr a j ≠ none := fun j hj => by
      rcases key a j with e | e
      · exact absurd e hj
      · rwa [e] at hj
    exact ⟨hh 0 ha.1, hh 1 ha.2.1, hh 2 ha.2.2⟩
  · rcases key a j with e | e
    · rw [e]; simp
    · rw [e]; exact h.irr a j hj3

/-- The polytope with a new corner at `p`. -/
def addCorner (t i c d : Nat) (wi wm : Wall) (p : Nat → ℝ) (P : Poly) : Poly :=
  Poly.redirect
    { num := P.num + 1
      cap := if P.num + 1 = P.cap then 2 * P.cap else P.cap
      pos := upd P.pos P.num (some p)
      nbr := upd P.nbr P.num fun j => if j = i then some d else none
      wall := upd P.wall P.num fun j => if j = i then some wi else if j = (i + 2) % 3 then some wm else some (Wall.pt t) } d c P.num

theorem cutEdge_add {t c i d : Nat} {xo n xc xd : Nat → ℝ} {P : Poly} {wi wm : Wall} (h1 : P.wall c i = some wi) (h2 : P.wall c ((i + 2) % 3) = some wm) (h3 : P.num < P.cap) :
    cutEdge t xo n c i d xc xd P = some (addCorner t i c d wi wm (fun e => xc e + cutParam (side xo n xc) (side xo n xd) * (xd e - xc e)) P) := by
  unfold cutEdge
  rw [h1, h2]
  simp only
  rw [if_pos h3]
  rfl

theorem Twin.addCorner {P Q : Poly} (h : Twin P Q) (t i c d : Nat) (wi wm : Wall) (p p' : Nat → ℝ) : Twin (addCorner t i c d wi wm p P) (addCorner t i c d wi wm p' Q) := by
  unfold VoroCrust.addCorner
  rw [h.num, h.cap, h.nbr, h.wall]
  apply Twin.redirect
  refine ⟨rfl, rfl, rfl, rfl, fun a => ?_⟩
  simp only [upd]
  by_cases ha : a = P.num <;> simp [ha, h.live]

theorem addCorner_pos {t i c d : Nat} {wi wm : Wall} {p : Nat → ℝ} {P : Poly} : (addCorner t i c d wi wm p P).pos = upd P.pos P.num (some p) := by
  unfold addCorner; rw [redirect_pos]

theorem addCorner_num {t i c d : Nat} {wi wm : Wall} {p : Nat → ℝ} {P : Poly} : (addCorner t i c d wi wm p P).num = P.num + 1 := by
  unfold addCorner Poly.redirect
  split <;> rfl

/-- A slot of an old corner is as it was, or turned from `c` to the new corner. -/
theorem redirect_nbr (P : Poly) (d c k a j : Nat) : (P.redirect d c k).nbr a j = P.nbr a j ∨ (a = d ∧ P.nbr a j = some c ∧ (P.redirect d c k).nbr a j = some k) := by
  unfold Poly.redirect
  cases e : P.slot d (fun o => o == some c) with
  | none => exact Or.inl rfl
  | some l =>
    by_cases hq : a = d ∧ j = l
    · refine Or.inr ⟨hq.1, ?_, ?_⟩
      · rw [hq.1, hq.2]
        unfold Poly.slot at e
        by_cases h0 : P.nbr d 0 == some c
        · rw [if_pos h0] at e; obtain rfl := Option.some.inj e; simpa using h0
        rw [if_neg h0] at e
        by_cases h1 : P.nbr d 1 == some c
        · rw [if_pos h1] at e; obtain rfl := Option.some.inj e; simpa using h1
        rw [if_neg h1] at e
        by_cases h2 : P.nbr d 2 == some c
        · rw [if_pos h2] at e; obtain rfl := Option.some.inj e; simpa using h2
        rw [if_neg h2] at e
        simp at e
      · show (if a = d ∧ j = l then some k else P.nbr a j) = some k
        rw [if_pos hq]
    · refine Or.inl ?_
      show (if a = d ∧ j = l then some k else P.nbr a j) = P.nbr a j
      rw [if_neg hq]

theorem addCorner_nbr {t i c d : Nat} {wi wm : Wall} {p : Nat → ℝ} {P : Poly} (a j : Nat) :
    ((addCorner t i c d wi wm p P).nbr a j = if a = P.num then (if j = i then some d else none) else P.nbr a j) ∨
      (a = d ∧ (addCorner t i c d wi wm p P).nbr a j = some P.num ∧ (if a = P.num then (if j = i then some d else none) else P.nbr a j) ≠ none) := by
  have key := redirect_nbr { num := P.num + 1, cap := if P.num + 1 = P.cap then 2 * P.cap else P.cap, pos := upd P.pos P.num (some p), nbr := upd P.nbr P.num fun j => if j = i then some d else none, wall := upd P.wall P.num fun j => if j = i then some wi else if j = (i + 2) % 3 then some wm else some (Wall.pt t) } d c P.num a j
  have e : (upd P.nbr P.num fun j => if j = i then some d else none) a j = if a = P.num then (if j = i then some d else none) else P.nbr a j := by
    unfold upd; by_cases ha : a = P.num <;> simp [ha]
  rcases key with h | ⟨h1, h2, h3⟩
  · left
    rw [← e]
    exact h
  · right
    refine ⟨h1, h3, ?_⟩
    rw [← e]
    rw [show (upd P.nbr P.num fun j => if j = i then some d else none) a j = some c from h2]
    simp

theorem cutParam_tendsto {a b : ℝ} (ha : 0 < a) (hb : b ≤ 0) {f g : Nat → ℝ} (hf : Tendsto f atTop (𝓝 a)) (hg : Tendsto g atTop (𝓝 b)) : Tendsto (fun k => cutParam (f k) (g k)) atTop (𝓝 (cutParam a b)) := by
  have e : ∀ u v : ℝ, cutParam u v = max 0 (min 1 (u / (u - v))) := fun u v => by
    unfold cutParam
    by_cases h1 : u / (u - v) < 0
    · rw [if_pos h1, max_eq_left]; exact (min_le_right _ _).trans h1.le
    rw [if_neg h1]
    push Not at h1
    by_cases h2 : 1 < u / (u - v)
    · rw [if_pos h2, min_eq_left h2.le, max_eq_right (by norm_num)]
    · rw [if_neg h2, min_eq_right (not_lt.1 h2), max_eq_right h1]
  simp only [e]
  exact tendsto_const_nhds.max (tendsto_const_nhds.min (hf.div (hf.sub hg) (by linarith)))

variable {xo n : Nat → ℝ} {y : Nat → Nat → ℝ} {t : Nat}

theorem cutEdge_lock (hx : ∀ d, Tendsto (fun k => y k d) atTop (𝓝 (xo d))) {P : Poly} {Q : Nat → Poly} (h : Lock N X P Q) {c i d : Nat} (hi : i < 3) (hd : d < P.num) {xc xd : Nat → ℝ} (hc : P.pos c = some xc) (hdp : P.pos d = some xd)
    (h1 : side xo n xc > 1e-10) (h2 : side xo n xd ≤ 0) :
    OLock N X (cutEdge t xo n c i d xc xd P) (fun k => cutEdge t (y k) n c i d (posAt (Q k) c) (posAt (Q k) d) (Q k)) := by
  have hnone : ∀ {P' : Poly} {xo' xc' xd' : Nat → ℝ}, (P'.wall c i = none ∨ P'.wall c ((i + 2) % 3) = none ∨ ¬ P'.num < P'.cap) → cutEdge t xo' n c i d xc' xd' P' = none := by
    intro P' xo' xc' xd' hq
    unfold cutEdge
    rcases hq with e | e | e
    · rw [e]
    · rw [e]; cases P'.wall c i <;> rfl
    · cases P'.wall c i with
      | none => rfl
      | some w =>
        cases P'.wall c ((i + 2) % 3) with
        | none => rfl
        | some w' => simp only; rw [if_neg e]
  by_cases hq : P.wall c i = none ∨ P.wall c ((i + 2) % 3) = none ∨ ¬ P.num < P.cap
  · rw [hnone hq]
    exact h.twin.mono fun k hk => hnone (by rw [hk.wall, hk.num, hk.cap]; exact hq)
  · push Not at hq
    obtain ⟨q1, q2, q3⟩ := hq
    obtain ⟨wi, e1⟩ := Option.ne_none_iff_exists'.1 q1
    obtain ⟨wm, e2⟩ := Option.ne_none_iff_exists'.1 q2
    rw [cutEdge_add e1 e2 q3]
    refine ⟨fun k => addCorner t i c d wi wm (fun e => posAt (Q k) c e + cutParam (side (y k) n (posAt (Q k) c)) (side (y k) n (posAt (Q k) d)) * (posAt (Q k) d e - posAt (Q k) c e)) (Q k),
      h.twin.mono fun k hk => cutEdge_add (by rw [hk.wall]; exact e1) (by rw [hk.wall]; exact e2) (by rw [hk.num, hk.cap]; exact q3), ⟨⟨h.twin.mono fun k hk => hk.addCorner .., fun a v hv e => ?_⟩, fun a v ha hv => ?_, fun a ha => ?_, fun a j hj3 => ?_, ?_⟩⟩
    · rw [addCorner_pos] at hv
      unfold upd at hv
      by_cases ha : a = P.num
      · rw [if_pos ha] at hv
        obtain rfl := Option.some.inj hv
        have hpos : 0 < side xo n xc := lt_trans (by norm_num) h1
        have hl := cutParam_tendsto hpos h2 (h.toNear.side (n := n) hx hc) (h.toNear.side (n := n) hx hdp)
        have hlim := (h.lim c xc hc e).add (hl.mul ((h.lim d xd hdp e).sub (h.lim c xc hc e)))
        refine hlim.congr' (h.twin.mono fun k hk => ?_)
        have e' : (addCorner t i c d wi wm (fun e => posAt (Q k) c e + cutParam (side (y k) n (posAt (Q k) c)) (side (y k) n (posAt (Q k) d)) * (posAt (Q k) d e - posAt (Q k) c e)) (Q k)).pos a =
            some (fun e => posAt (Q k) c e + cutParam (side (y k) n (posAt (Q k) c)) (side (y k) n (posAt (Q k) d)) * (posAt (Q k) d e - posAt (Q k) c e)) := by
          rw [addCorner_pos]
          unfold upd
          rw [if_pos (by rw [hk.num]; exact ha)]
        exact (congrFun (posAt_eq e') e).symm
      · rw [if_neg ha] at hv
        refine (h.lim a v hv e).congr' (h.twin.mono fun k hk => ?_)
        rw [posAt_congr]
        rw [addCorner_pos]
        unfold upd
        rw [if_neg (by rw [hk.num]; exact ha)]
    · rw [addCorner_pos] at hv
      unfold upd at hv
      rw [if_neg (by have := h.num; omega)] at hv
      exact h.old a v ha hv
    · have hh : ∀ j, (addCorner t i c d wi wm (fun e => xc e + cutParam (side xo n xc) (side xo n xd) * (xd e - xc e)) P).nbr a j ≠ none → (if a = P.num then (if j = i then some d else none) else P.nbr a j) ≠ none := fun j hj => by
        rcases addCorner_nbr (t := t) (i := i) (c := c) (d := d) (wi := wi) (wm := wm) (p := fun e => xc e + cutParam (side xo n xc) (side xo n xd) * (xd e - xc e)) (P := P) a j with e | ⟨-, -, e⟩
        · rwa [e] at hj
        · exact e
      have g0 := hh 0 ha.1
      have g1 := hh 1 ha.2.1
      have g2 := hh 2 ha.2.2
      by_cases hn : a = P.num
      · rw [if_pos hn] at g0 g1 g2
        exfalso
        have i0 : 0 = i := by_contra fun q => g0 (if_neg q)
        have i1 : 1 = i := by_contra fun q => g1 (if_neg q)
        omega
      · rw [if_neg hn] at g0 g1 g2
        exact h.whole a ⟨g0, g1, g2⟩
    · rcases addCorner_nbr (t := t) (i := i) (c := c) (d := d) (wi := wi) (wm := wm) (p := fun e => xc e + cutParam (side xo n xc) (side xo n xd) * (xd e - xc e)) (P := P) a j with e | ⟨e1, e2, -⟩
      · rw [e]
        by_cases hn : a = P.num
        · rw [if_pos hn]
          by_cases hj : j = i
          · rw [if_pos hj, hn]
            intro q
            have := Option.some.inj q
            omega
          · rw [if_neg hj]; simp
        · rw [if_neg hn]; exact h.irr a j hj3
      · rw [e2, e1]
        intro q
        have := Option.some.inj q
        omega
    · rw [addCorner_num]
      have := h.num
      omega

/-! ## The recursion -/

/-- The corners at the beginning are well beyond the plane or not beyond it. -/
def Gapped (N : Nat) (X : Nat → Option (Nat → ℝ)) (xo n : Nat → ℝ) : Prop := ∀ c v, c < N → X c = some v → side xo n v ≤ 0 ∨ side xo n v > 1e-10

theorem trimSlot_lock (hx : ∀ d, Tendsto (fun k => y k d) atTop (𝓝 (xo d))) (hX : Gapped N X xo n) {rec : Nat → Nat → Poly → Option Poly} {reck : Nat → Nat → Nat → Poly → Option Poly} {c i : Nat} (hi : i < 3) (hcN : c < N)
    (hc : ∀ v, X c = some v → side xo n v > 1e-10)
    (hrec : ∀ d P Q, Lock N X P Q → d < N → d ≠ c → (∀ v, X d = some v → side xo n v > 1e-10) → OLock N X (rec d c P) (fun k => reck k d c (Q k))) {P : Poly} {Q : Nat → Poly} (h : Lock N X P Q) :
    OLock N X (trimSlot rec t xo n c i P) (fun k => trimSlot (reck k) t (y k) n c i (Q k)) := by
  unfold trimSlot
  cases hn : P.nbr c i with
  | none => exact ⟨Q, h.twin.mono fun k hk => by simp only; rw [hk.nbr, hn], h⟩
  | some d =>
    simp only
    have hdc : d ≠ c := fun q => h.irr c i hi (by rw [hn, q])
    by_cases hd : P.num ≤ d
    · rw [if_pos hd]
      exact h.twin.mono fun k hk => by simp only; rw [hk.nbr, hn, hk.num]; simp only; rw [if_pos hd]
    rw [if_neg hd]
    by_cases hw : P.nbr d 0 = none ∨ P.nbr d 1 = none ∨ P.nbr d 2 = none
    · rw [if_pos hw]
      exact ⟨Q, h.twin.mono fun k hk => by simp only; rw [hk.nbr, hn, hk.num]; simp only; rw [if_neg hd, if_pos hw], h⟩
    rw [if_neg hw]
    have hdN : d < N := by push Not at hw; exact h.whole d hw
    have hev : ∀ᶠ k in atTop, Twin P (Q k) := h.twin
    cases hpc : P.pos c with
    | none => exact hev.mono fun k hk => by simp only; rw [hk.nbr, hn, hk.num]; simp only; rw [if_neg hd, if_neg hw, (hk.live c).2 hpc]
    | some xc =>
      cases hpd : P.pos d with
      | none =>
        refine hev.mono fun k hk => ?_
        simp only
        rw [hk.nbr, hn, hk.num]
        simp only
        rw [if_neg hd, if_neg hw, (hk.live d).2 hpd, hk.pos hpc]
      | some xd =>
        simp only
        have hXc := hc xc (h.old c xc hcN hpc)
        have hXd := h.old d xd hdN hpd
        have hlim := h.toNear.side (n := n) hx hpd
        by_cases hs : side xo n xd > 1e-10
        · rw [if_pos hs]
          refine (hrec d _ _ (h.setNone c i) hdN hdc fun v hv => ?_).congr ?_
          · obtain rfl := Option.some.inj (hXd.symm.trans hv)
            exact hs
          · refine (hev.and (hlim.eventually_const_lt hs)).mono fun k hk => ?_
            obtain ⟨hk, hks⟩ := hk
            rw [hk.nbr, hn, hk.num]
            simp only
            rw [if_neg hd, if_neg hw, hk.pos hpc, hk.pos hpd]
            simp only
            rw [if_pos hks]
        · rw [if_neg hs]
          have hle := (hX d xd hdN hXd).resolve_right hs
          refine (cutEdge_lock hx (h.setNone c i) hi (show d < (P.setNbr c i none).num from not_le.1 hd) hpc hpd hXc hle).congr ?_
          refine (hev.and (hlim.eventually_lt_const (show side xo n xd < 1e-10 from lt_of_le_of_lt hle (by norm_num)))).mono fun k hk => ?_
          obtain ⟨hk, hks⟩ := hk
          rw [hk.nbr, hn, hk.num]
          simp only
          rw [if_neg hd, if_neg hw, hk.pos hpc, hk.pos hpd]
          simp only
          rw [if_neg (not_lt.2 hks.le)]
          rfl

theorem OLock.bind {o : Option Poly} {q : Nat → Option Poly} (h : OLock N X o q) {f : Poly → Option Poly} {g : Nat → Poly → Option Poly} (hf : ∀ P Q, Lock N X P Q → OLock N X (f P) (fun k => g k (Q k))) :
    OLock N X (o.bind f) (fun k => (q k).bind (g k)) := by
  cases o with
  | none =>
    have h' : ∀ᶠ k in atTop, q k = none := h
    exact h'.mono fun k hk => by simp only [hk]; rfl
  | some R =>
    obtain ⟨Q, h1, h2⟩ := h
    exact (hf R Q h2).congr (h1.mono fun k hk => by simp only [hk]; rfl)

theorem trimSlots_bind (rec : Nat → Nat → Poly → Option Poly) (t : Nat) (xo n : Nat → ℝ) (c io : Nat) (P : Poly) :
    trimSlots rec t xo n c io P = (trimSlot rec t xo n c (io % 3) P).bind fun P1 => (trimSlot rec t xo n c ((io + 1) % 3) P1).bind fun P2 => trimSlot rec t xo n c ((io + 2) % 3) P2 := by
  unfold trimSlots
  cases trimSlot rec t xo n c (io % 3) P with
  | none => rfl
  | some P1 =>
    simp only [Option.bind_some]
    cases trimSlot rec t xo n c ((io + 1) % 3) P1 <;> rfl

theorem trimSlots_lock (hx : ∀ d, Tendsto (fun k => y k d) atTop (𝓝 (xo d))) (hX : Gapped N X xo n) {rec : Nat → Nat → Poly → Option Poly} {reck : Nat → Nat → Nat → Poly → Option Poly} {c io : Nat} (hcN : c < N)
    (hc : ∀ v, X c = some v → side xo n v > 1e-10)
    (hrec : ∀ d P Q, Lock N X P Q → d < N → d ≠ c → (∀ v, X d = some v → side xo n v > 1e-10) → OLock N X (rec d c P) (fun k => reck k d c (Q k))) {P : Poly} {Q : Nat → Poly} (h : Lock N X P Q) :
    OLock N X (trimSlots rec t xo n c io P) (fun k => trimSlots (reck k) t (y k) n c io (Q k)) := by
  simp only [trimSlots_bind]
  have h3 : ∀ m, m % 3 < 3 := fun m => by omega
  refine (trimSlot_lock hx hX (h3 _) hcN hc hrec h).bind fun P1 Q1 h1 => ?_
  refine (trimSlot_lock hx hX (h3 _) hcN hc hrec h1).bind fun P2 Q2 h2 => ?_
  exact trimSlot_lock hx hX (h3 _) hcN hc hrec h2

theorem Twin.firstSlot {P Q : Poly} (h : Twin P Q) (c old : Nat) : firstSlot Q c old = firstSlot P c old := by
  unfold VoroCrust.firstSlot; rw [h.slot]

theorem Lock.delete {P : Poly} {Q : Nat → Poly} (h : Lock N X P Q) (c : Nat) : Lock N X (P.delete c) (fun k => (Q k).delete c) := by
  have hnb : ∀ a j, (P.delete c).nbr a j = none ∨ (P.delete c).nbr a j = P.nbr a j := fun a j => by
    unfold Poly.delete upd
    by_cases ha : a = c <;> simp [ha]
  refine ⟨h.toNear.delete c, fun a v ha hv => h.old a v ha ?_, fun a ha => h.whole a ?_, fun a j hj3 => ?_, h.num⟩
  · unfold Poly.delete upd at hv
    by_cases q : a = c
    · simp [q] at hv
    · simpa [q] using hv
  · have hh : ∀ j, (P.delete c).nbr a j ≠ none → P.nbr a j ≠ none := fun j hj => by
      rcases hnb a j with e | e
      · exact absurd e hj
      · rwa [e] at hj
    exact ⟨hh 0 ha.1, hh 1 ha.2.1, hh 2 ha.2.2⟩
  · rcases hnb a j with e | e
    · rw [e]; simp
    · rw [e]; exact h.irr a j hj3

theorem trimVertex_lock (hx : ∀ d, Tendsto (fun k => y k d) atTop (𝓝 (xo d))) (hX : Gapped N X xo n) (f : Nat) : ∀ (c old : Nat) (P : Poly) (Q : Nat → Poly), Lock N X P Q → c < N → c ≠ old → (∀ v, X c = some v → side xo n v > 1e-10) →
    OLock N X (trimVertex t xo n f c old P) (fun k => trimVertex t (y k) n f c old (Q k)) := by
  induction f with
  | zero => intro c old P Q _ _ _ _; exact Eventually.of_forall fun k => rfl
  | succ f ih =>
    intro c old P Q h hcN hne hc
    have key := (trimSlots_lock (t := t) (io := VoroCrust.firstSlot P c old) hx hX hcN hc (fun d P' Q' h' hd hdc hd' => ih d c P' Q' h' hd hdc hd') h).bind (f := fun P1 => some (P1.delete c)) (g := fun _ P1 => some (P1.delete c))
      fun P1 Q1 h1 => ⟨_, Eventually.of_forall fun _ => rfl, h1.delete c⟩
    have e1 : ∀ (xo' : Nat → ℝ) (R : Poly), trimVertex t xo' n (f + 1) c old R = (trimSlots (trimVertex t xo' n f) t xo' n c (VoroCrust.firstSlot R c old) R).bind fun P1 => some (P1.delete c) := fun xo' R => by
      rw [trimVertex]
      simp only [if_neg hne]
      cases trimSlots (trimVertex t xo' n f) t xo' n c (VoroCrust.firstSlot R c old) R <;> rfl
    rw [e1]
    refine key.congr (h.twin.mono fun k hk => ?_)
    rw [e1, hk.firstSlot]

/-- **`trim_vertex` on nearby polytopes**: the same outcome, and nearby results. -/
theorem trimVertex_near (hx : ∀ d, Tendsto (fun k => y k d) atTop (𝓝 (xo d))) {P : Poly} (hwf : P.WF) {Q : Nat → Poly} (h : Near P Q) (hX : Gapped P.num P.pos xo n) (f : Nat) {c : Nat} {v : Nat → ℝ} (hv : P.pos c = some v)
    (hs : side xo n v > 1e-10) :
    (trimVertex t xo n f c c P = none ∧ ∀ᶠ k in atTop, trimVertex t (y k) n f c c (Q k) = none) ∨
      ∃ R Q', trimVertex t xo n f c c P = some R ∧ (∀ᶠ k in atTop, trimVertex t (y k) n f c c (Q k) = some (Q' k)) ∧ Near R Q' := by
  have hlive : ∀ a, P.pos a ≠ none → a < P.num := fun a ha => hwf.fin a ha
  have hL : Lock P.num P.pos P Q := by
    refine ⟨h, fun a u _ hu => hu, fun a ha => ?_, fun a i hi q => ?_, le_refl _⟩
    · by_contra hno
      exact ha.1 (hwf.dead a 0 fun hl => hno (hwf.fin a hl))
    · by_cases hl : P.Live a
      · obtain ⟨d, e, -, hd⟩ := hwf.out a i hi hl
        rw [e] at q
        exact hd (Option.some.inj q)
      · rw [hwf.dead a i hl] at q; simp at q
  cases f with
  | zero => exact Or.inl ⟨rfl, Eventually.of_forall fun _ => rfl⟩
  | succ f =>
    have key := trimSlots_lock (t := t) (c := c) (io := 0) hx hX (hwf.fin c (live_of_pos hv)) (fun u hu => by obtain rfl := Option.some.inj (hv.symm.trans hu); exact hs)
      (fun d P' Q' h' hd hdc hd' => trimVertex_lock (t := t) hx hX f d c P' Q' h' hd hdc hd') hL
    have e1 : ∀ (xo' : Nat → ℝ) (R : Poly), trimVertex t xo' n (f + 1) c c R = match trimSlots (trimVertex t xo' n f) t xo' n c 0 R with | none => none | some P1 => some (linkRing R.num (P1.num - R.num) R.num (P1.delete c)) := fun xo' R => by
      rw [trimVertex]
      unfold firstSlot
      simp only [if_true]
      cases trimSlots (trimVertex t xo' n f) t xo' n c 0 R <;> rfl
    simp only [e1]
    cases hk : trimSlots (trimVertex t xo n f) t xo n c 0 P with
    | none =>
      rw [hk] at key
      have key' : ∀ᶠ k in atTop, trimSlots (trimVertex t (y k) n f) t (y k) n c 0 (Q k) = none := key
      exact Or.inl ⟨rfl, key'.mono fun k hk => by simp only [hk]⟩
    | some P1 =>
      rw [hk] at key
      obtain ⟨Q1, k1, k2⟩ := key
      refine Or.inr ⟨_, fun k => linkRing P.num (P1.num - P.num) P.num ((Q1 k).delete c), rfl, ?_, (k2.toNear.delete c).linkRing _ _ _⟩
      refine (k1.and (h.twin.and k2.twin)).mono fun k hk => ?_
      have hk1 : trimSlots (trimVertex t (y k) n f) t (y k) n c 0 (Q k) = some (Q1 k) := hk.1
      rw [hk1]
      simp only
      rw [hk.2.1.num, hk.2.2.num]

end VoroCrust
