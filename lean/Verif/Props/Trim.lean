import Verif.Model.Cell
import Verif.Props.Front
import Mathlib.Tactic.IntervalCases
import Mathlib.Data.Finset.Card
import Mathlib.Data.Finset.Prod
import Mathlib.Algebra.BigOperators.Ring.Finset

/-! # Trimming a polytope: C76 -/

namespace VoroCrust

open Classical

/-! ## Well-formed polytopes -/

/-- A corner that has not been deleted. -/
def Poly.Live (P : Poly) (c : Nat) : Prop := P.pos c ≠ none

/-- Number of slots of `c` with neighbour `d`. -/
noncomputable def Poly.cnt (P : Poly) (c d : Nat) : Nat := (if P.nbr c 0 = some d then 1 else 0) + (if P.nbr c 1 = some d then 1 else 0) + (if P.nbr c 2 = some d then 1 else 0)

/-- Number of slots of `c` that lead out of `A`. -/
noncomputable def Poly.leave (P : Poly) (A : Finset Nat) (c : Nat) : Nat :=
  (if ∃ d, P.nbr c 0 = some d ∧ d ∉ A then 1 else 0) + (if ∃ d, P.nbr c 1 = some d ∧ d ∉ A then 1 else 0) + (if ∃ d, P.nbr c 2 = some d ∧ d ∉ A then 1 else 0)

/-- The corners that are left form a graph: each has three neighbours, none is its own neighbour, the neighbour relation is symmetric, and no set of corners is joined to the others by a single
edge. -/
structure Poly.WF (P : Poly) : Prop where
  cap : P.num < P.cap
  fin : ∀ c, P.Live c → c < P.num
  out : ∀ c i, i < 3 → P.Live c → ∃ d, P.nbr c i = some d ∧ P.Live d ∧ d ≠ c
  dead : ∀ c i, ¬ P.Live c → P.nbr c i = none
  wall : ∀ c i, i < 3 → P.Live c → P.wall c i ≠ none
  sym : ∀ c d, P.Live c → P.Live d → P.cnt c d = P.cnt d c
  bridge : ∀ A : Finset Nat, (∀ c ∈ A, P.Live c) → ∑ c ∈ A, P.leave A c ≠ 1

theorem cnt_congr {P Q : Poly} {c : Nat} (h : ∀ i, i < 3 → P.nbr c i = Q.nbr c i) (d : Nat) : P.cnt c d = Q.cnt c d := by
  unfold Poly.cnt
  rw [h 0 (by omega), h 1 (by omega), h 2 (by omega)]

theorem cnt_eq_zero {P : Poly} {c d : Nat} : P.cnt c d = 0 ↔ ∀ i, i < 3 → P.nbr c i ≠ some d := by
  unfold Poly.cnt
  constructor
  · intro h i hi he
    interval_cases i <;> simp [he] at h
  · intro h
    simp [h 0 (by omega), h 1 (by omega), h 2 (by omega)]

theorem cnt_pos {P : Poly} {c d i : Nat} (hi : i < 3) (h : P.nbr c i = some d) : 0 < P.cnt c d := by
  rw [Nat.pos_iff_ne_zero]
  intro h0
  exact cnt_eq_zero.1 h0 i hi h

theorem setNbr_other {P : Poly} {c i : Nat} {v : Option Nat} {a : Nat} (h : a ≠ c) (j : Nat) : (P.setNbr c i v).nbr a j = P.nbr a j := by simp [Poly.setNbr, h]

theorem setNbr_slot {P : Poly} {c i : Nat} {v : Option Nat} {j : Nat} (h : j ≠ i) (a : Nat) : (P.setNbr c i v).nbr a j = P.nbr a j := by simp [Poly.setNbr, h]

theorem setNbr_self (P : Poly) (c i : Nat) (v : Option Nat) : (P.setNbr c i v).nbr c i = v := by simp [Poly.setNbr]

/-- Overwriting a slot that led to `d` with something else. -/
theorem cnt_setNbr {P : Poly} {c i d : Nat} {v : Option Nat} (hi : i < 3) (h : P.nbr c i = some d) (hv : v ≠ some d) : (P.setNbr c i v).cnt c d + 1 = P.cnt c d := by
  unfold Poly.cnt
  interval_cases i
  · rw [setNbr_self, setNbr_slot (by omega), setNbr_slot (by omega), h, if_neg hv, if_pos rfl]; omega
  · rw [setNbr_self, setNbr_slot (by omega), setNbr_slot (by omega), h, if_neg hv, if_pos rfl]; omega
  · rw [setNbr_self, setNbr_slot (by omega), setNbr_slot (by omega), h, if_neg hv, if_pos rfl]

/-- Overwriting a slot that led to something else with `d`. -/
theorem cnt_setNbr_new {P : Poly} {c i d : Nat} (hi : i < 3) (h : P.nbr c i ≠ some d) : (P.setNbr c i (some d)).cnt c d = P.cnt c d + 1 := by
  unfold Poly.cnt
  interval_cases i
  · rw [setNbr_self, setNbr_slot (by omega), setNbr_slot (by omega), if_neg h, if_pos rfl]; omega
  · rw [setNbr_self, setNbr_slot (by omega), setNbr_slot (by omega), if_neg h, if_pos rfl]; omega
  · rw [setNbr_self, setNbr_slot (by omega), setNbr_slot (by omega), if_neg h, if_pos rfl]

/-- Overwriting a slot that has nothing to do with `d`. -/
theorem cnt_setNbr_ne {P : Poly} {c i d : Nat} {v : Option Nat} (hi : i < 3) (h : P.nbr c i ≠ some d) (hv : v ≠ some d) : (P.setNbr c i v).cnt c d = P.cnt c d := by
  unfold Poly.cnt
  interval_cases i
  · rw [setNbr_self, setNbr_slot (by omega), setNbr_slot (by omega), if_neg h, if_neg hv]
  · rw [setNbr_self, setNbr_slot (by omega), setNbr_slot (by omega), if_neg h, if_neg hv]
  · rw [setNbr_self, setNbr_slot (by omega), setNbr_slot (by omega), if_neg h, if_neg hv]

theorem slot_spec {P : Poly} {c : Nat} {p : Option Nat → Bool} : (∃ j, P.slot c p = some j ∧ j < 3 ∧ p (P.nbr c j) = true) ∨ (P.slot c p = none ∧ ∀ i, i < 3 → p (P.nbr c i) = false) := by
  unfold Poly.slot
  split_ifs with h0 h1 h2
  · exact Or.inl ⟨0, rfl, by omega, h0⟩
  · exact Or.inl ⟨1, rfl, by omega, h1⟩
  · exact Or.inl ⟨2, rfl, by omega, h2⟩
  · refine Or.inr ⟨rfl, fun i hi => ?_⟩
    interval_cases i <;> simp_all

/-! ## The state during the recursion -/

section

variable (P0 : Poly) (xo n : Nat → ℝ)

/-- A corner that has to go. -/
def Beyond (c : Nat) : Prop := ∃ v, P0.pos c = some v ∧ side xo n v > 1e-10

/-- A corner that stays. -/
def Within (c : Nat) : Prop := ∃ v, P0.pos c = some v ∧ ¬ side xo n v > 1e-10

/-- The state during the recursion: `S` are the corners that were visited, `D` those that are deleted already. -/
structure TrimInv (P : Poly) (S D : Finset Nat) : Prop where
  num : P0.num ≤ P.num
  cap : P.num < P.cap
  beyond : ∀ c ∈ S, Beyond P0 xo n c
  sub : D ⊆ S
  old : ∀ c, c < P0.num → c ∉ D → P.pos c = P0.pos c
  gone : ∀ c ∈ D, P.pos c = none ∧ ∀ i, P.nbr c i = none
  high : ∀ c, P.num ≤ c → P.pos c = none ∧ ∀ i, P.nbr c i = none
  dead : ∀ c, c < P0.num → ¬ P0.Live c → ∀ i, P.nbr c i = none
  wall : ∀ c i, i < 3 → P.pos c ≠ none → P.wall c i ≠ none
  unseen : ∀ c, Beyond P0 xo n c → c ∉ S → ∀ i, P.nbr c i = P0.nbr c i
  prog : ∀ c ∈ S, c ∉ D → ∀ i, i < 3 → P.nbr c i = none ∨ P.nbr c i = P0.nbr c i
  inner : ∀ c, Within P0 xo n c → ∀ i, i < 3 → P.nbr c i = P0.nbr c i ∨ ∃ k s, P.nbr c i = some k ∧ P0.num ≤ k ∧ k < P.num ∧ s ∈ S ∧ P0.nbr c i = some s
  half : ∀ c ∈ S, ∀ d, Within P0 xo n d → P.cnt c d = P.cnt d c
  done : ∀ c ∈ D, ∀ i, i < 3 → ∀ d, P0.nbr c i = some d → d ∈ S ∨ Within P0 xo n d
  new : ∀ k, P0.num ≤ k → k < P.num → ∃ i d, i < 3 ∧ Within P0 xo n d ∧ P.nbr k i = some d ∧ (∀ j, j < 3 → j ≠ i → P.nbr k j = none) ∧ P.cnt d k = 1 ∧ ∀ e, Within P0 xo n e → e ≠ d → P.cnt e k = 0
  place : ∀ k, P0.num ≤ k → k < P.num → ∃ c d xc xd, c ∈ S ∧ Within P0 xo n d ∧ P0.pos c = some xc ∧ P0.pos d = some xd ∧
    P.pos k = some fun e => xc e + cutParam (side xo n xc) (side xo n xd) * (xd e - xc e)

variable {P0 xo n}

theorem Beyond.not_within {c : Nat} (h : Beyond P0 xo n c) : ¬ Within P0 xo n c := by
  rintro ⟨v, hv, h1⟩
  obtain ⟨w, hw, h2⟩ := h
  obtain rfl := Option.some.inj (hv.symm.trans hw)
  exact h1 h2

theorem live_cases {c : Nat} (h : P0.Live c) : Beyond P0 xo n c ∨ Within P0 xo n c := by
  obtain ⟨v, hv⟩ := Option.ne_none_iff_exists'.1 h
  by_cases h1 : side xo n v > 1e-10
  · exact Or.inl ⟨v, hv, h1⟩
  · exact Or.inr ⟨v, hv, h1⟩

theorem Beyond.live {c : Nat} (h : Beyond P0 xo n c) : P0.Live c := by obtain ⟨v, hv, -⟩ := h; simp [Poly.Live, hv]

theorem Within.live {c : Nat} (h : Within P0 xo n c) : P0.Live c := by obtain ⟨v, hv, -⟩ := h; simp [Poly.Live, hv]

theorem TrimInv.start (h : P0.WF) : TrimInv P0 xo n P0 ∅ ∅ := by
  refine ⟨le_refl _, h.cap, by simp, by simp, fun _ _ _ => rfl, by simp, fun c hc => ?_, fun c _ hc i => h.dead c i hc, h.wall, fun _ _ _ _ => rfl, by simp, fun _ _ _ _ => Or.inl rfl, by simp, by simp,
    fun k h1 h2 => by omega, fun k h1 h2 => by omega⟩
  have : ¬ P0.Live c := fun hl => by have := h.fin c hl; omega
  exact ⟨by simpa [Poly.Live] using this, fun i => h.dead c i this⟩

/-- The neighbours of a visited corner. -/
theorem TrimInv.nbr_live (h0 : P0.WF) {P : Poly} {S D : Finset Nat} (h : TrimInv P0 xo n P S D) {c d i : Nat} (hc : c ∈ S) (hd : c ∉ D) (hi : i < 3) (hn : P.nbr c i = some d) :
    P0.nbr c i = some d ∧ P0.Live d ∧ d ≠ c ∧ d < P0.num := by
  have hl := (h.beyond c hc).live
  obtain ⟨e, he, hel, hne⟩ := h0.out c i hi hl
  rcases h.prog c hc hd i hi with h1 | h1
  · rw [h1] at hn; simp at hn
  · rw [h1, he] at hn
    obtain rfl := Option.some.inj hn
    exact ⟨he, hel, hne, h0.fin e hel⟩

/-- A corner that is left and not visited has three neighbours. -/
theorem TrimInv.full (h0 : P0.WF) {P : Poly} {S D : Finset Nat} (h : TrimInv P0 xo n P S D) {c i : Nat} (hl : P0.Live c) (hc : c ∉ S) (hi : i < 3) : P.nbr c i ≠ none := by
  obtain ⟨e, he, -, -⟩ := h0.out c i hi hl
  rcases live_cases (xo := xo) (n := n) hl with hb | hw
  · rw [h.unseen c hb hc, he]; simp
  · rcases h.inner c hw i hi with h1 | ⟨k, s, h1, -⟩
    · rw [h1, he]; simp
    · rw [h1]; simp

theorem cnt_other {P : Poly} {c i a : Nat} {v : Option Nat} (h : a ≠ c) (d : Nat) : (P.setNbr c i v).cnt a d = P.cnt a d := cnt_congr (fun j _ => setNbr_other h j) d

theorem Within.ne {c d : Nat} (hc : Beyond P0 xo n c) (hd : Within P0 xo n d) : d ≠ c := by rintro rfl; exact hc.not_within hd

/-- Breaking an edge between two corners that go. -/
theorem TrimInv.break (h0 : P0.WF) {P : Poly} {S D : Finset Nat} (h : TrimInv P0 xo n P S D) {c d i : Nat} (hc : c ∈ S) (hcD : c ∉ D) (hi : i < 3) (hn : P.nbr c i = some d) (hd : Beyond P0 xo n d) :
    TrimInv P0 xo n (P.setNbr c i none) S D := by
  have hb := h.beyond c hc
  have hlt := h0.fin c hb.live
  refine ⟨h.num, h.cap, h.beyond, h.sub, h.old, fun a ha => ⟨(h.gone a ha).1, fun j => ?_⟩, fun a ha => ⟨(h.high a ha).1, fun j => ?_⟩, fun a ha hl j => ?_, h.wall, fun a ha hS j => ?_, fun a ha hD j hj => ?_,
    fun a ha j hj => ?_, fun a ha e he => ?_, h.done, fun k h1 h2 => ?_, h.place⟩
  · rw [setNbr_other (by rintro rfl; exact hcD ha)]; exact (h.gone a ha).2 j
  · have := h.num
    have : P.num ≤ a := ha
    rw [setNbr_other (by omega)]; exact (h.high a ha).2 j
  · rw [setNbr_other (by rintro rfl; exact hl hb.live)]; exact h.dead a ha hl j
  · rw [setNbr_other (by rintro rfl; exact hS hc)]; exact h.unseen a ha hS j
  · by_cases hac : a = c
    · subst hac
      by_cases hji : j = i
      · subst hji; exact Or.inl (setNbr_self _ _ _ _)
      · rw [setNbr_slot hji]; exact h.prog a ha hD j hj
    · rw [setNbr_other hac]; exact h.prog a ha hD j hj
  · rw [setNbr_other (Within.ne hb ha)]; exact h.inner a ha j hj
  · rw [cnt_other (Within.ne hb he)]
    by_cases hac : a = c
    · subst hac
      rw [cnt_setNbr_ne hi (by rw [hn]; rintro ⟨⟩; exact hd.not_within he) (by simp)]
      exact h.half a ha e he
    · rw [cnt_other hac]; exact h.half a ha e he
  · obtain ⟨j, e, g1, g2, g3, g4, g5, g6⟩ := h.new k h1 h2
    have hkc : k ≠ c := by omega
    refine ⟨j, e, g1, g2, by rw [setNbr_other hkc]; exact g3, fun j' hj' hne => by rw [setNbr_other hkc]; exact g4 j' hj' hne, by rw [cnt_other (Within.ne hb g2)]; exact g5, fun e' he' hne => ?_⟩
    rw [cnt_other (Within.ne hb he')]; exact g6 e' he' hne

/-- What a new corner does to the neighbours. -/
theorem cutEdge_form {P : Poly} {t c i d : Nat} {xc xd : Nat → ℝ} (hi : i < 3) (hcap : P.num < P.cap) (hw : ∀ j, j < 3 → P.wall c j ≠ none) (hcd : d ≠ c) (hdk : d ≠ P.num) (hpos : 0 < P.cnt d c) :
    ∃ P' j, cutEdge t xo n c i d xc xd (P.setNbr c i none) = some P' ∧ j < 3 ∧ P.nbr d j = some c ∧ P'.num = P.num + 1 ∧ P'.num < P'.cap ∧
      P'.pos = upd P.pos P.num (some fun e => xc e + cutParam (side xo n xc) (side xo n xd) * (xd e - xc e)) ∧ (∀ a, a ≠ P.num → P'.wall a = P.wall a) ∧ (∀ j', P'.wall P.num j' ≠ none) ∧
      ∀ a j', P'.nbr a j' = if a = d ∧ j' = j then some P.num else if a = P.num then (if j' = i then some d else none) else if a = c ∧ j' = i then none else P.nbr a j' := by
  obtain ⟨wi, hwi⟩ := Option.ne_none_iff_exists'.1 (hw i hi)
  obtain ⟨wm, hwm⟩ := Option.ne_none_iff_exists'.1 (hw ((i + 2) % 3) (by omega))
  unfold cutEdge
  have e1 : (P.setNbr c i none).wall = P.wall := rfl
  have e2 : (P.setNbr c i none).num = P.num := rfl
  have e3 : (P.setNbr c i none).cap = P.cap := rfl
  have e4 : (P.setNbr c i none).pos = P.pos := rfl
  simp only [e1, e2, e3, e4, hwi, hwm]
  rw [if_pos hcap]
  generalize hQ : (Poly.mk (P.num + 1) (if P.num + 1 = P.cap then 2 * P.cap else P.cap) (upd P.pos P.num (some fun e => xc e + cutParam (side xo n xc) (side xo n xd) * (xd e - xc e)))
    (upd (P.setNbr c i none).nbr P.num fun j => if j = i then some d else none) (upd P.wall P.num fun j => if j = i then some wi else if j = (i + 2) % 3 then some wm else some (Wall.pt t))) = Q
  have hQn : ∀ j, Q.nbr d j = P.nbr d j := fun j => by
    subst hQ
    simp only [upd, hdk, if_false]
    exact setNbr_other hcd j
  have hslot : ∃ j, Q.slot d (fun o => o == some c) = some j ∧ j < 3 ∧ P.nbr d j = some c := by
    rcases slot_spec (P := Q) (c := d) (p := fun o => o == some c) with ⟨j, h1, h2, h3⟩ | ⟨-, h1⟩
    · exact ⟨j, h1, h2, by rw [← hQn]; simpa using h3⟩
    · exfalso
      have : P.cnt d c = 0 := cnt_eq_zero.2 fun j hj he => by
        have := h1 j hj
        rw [hQn, he] at this
        simp at this
      omega
  obtain ⟨j, hj1, hj2, hj3⟩ := hslot
  refine ⟨_, j, rfl, hj2, hj3, ?_⟩
  unfold Poly.redirect
  rw [hj1]
  subst hQ
  refine ⟨rfl, ?_, rfl, fun a ha => by simp [Poly.setNbr, upd, ha], fun j' => ?_, fun a j' => ?_⟩
  · simp only [Poly.setNbr]
    split_ifs <;> omega
  · simp only [Poly.setNbr, upd, if_true]
    split_ifs <;> simp
  · simp only [Poly.setNbr, upd]
    split_ifs <;> simp_all

/-- No slot of a corner that stays leads to a corner that does not exist yet. -/
theorem TrimInv.cnt_fresh (h0 : P0.WF) {P : Poly} {S D : Finset Nat} (h : TrimInv P0 xo n P S D) {d : Nat} (hd : Within P0 xo n d) : P.cnt d P.num = 0 := by
  refine cnt_eq_zero.2 fun j hj he => ?_
  rcases h.inner d hd j hj with h1 | ⟨k, s, h1, -, h3, -⟩
  · obtain ⟨e, h2, h3, -⟩ := h0.out d j hj hd.live
    rw [h1, h2] at he
    have := h0.fin e h3
    have := h.num
    have := Option.some.inj he
    omega
  · rw [h1] at he
    have := Option.some.inj he
    omega

/-- A new corner on an edge between a corner that goes and one that stays. -/
theorem TrimInv.cut (h0 : P0.WF) {P : Poly} {S D : Finset Nat} (h : TrimInv P0 xo n P S D) {t c d i : Nat} (hc : c ∈ S) (hcD : c ∉ D) (hi : i < 3) (hn : P.nbr c i = some d) (hd : Within P0 xo n d)
    {xc xd : Nat → ℝ} (hxc : P0.pos c = some xc) (hxd : P0.pos d = some xd) :
    ∃ P', cutEdge t xo n c i d xc xd (P.setNbr c i none) = some P' ∧ TrimInv P0 xo n P' S D ∧ P'.nbr c i = none ∧ (∀ j, j ≠ i → P'.nbr c j = P.nbr c j) ∧ ∀ s ∈ S, s ≠ c → ∀ j, P'.nbr s j = P.nbr s j := by
  have hb := h.beyond c hc
  have hclt := h0.fin c hb.live
  have hdlt := h0.fin d hd.live
  have hnum := h.num
  have hdc := Within.ne hb hd
  have hpos : 0 < P.cnt d c := by rw [← h.half c hc d hd]; exact cnt_pos hi hn
  obtain ⟨P', j, eP, hj, hdj, k1, k2, k3, k4, k5, hN⟩ := cutEdge_form (xo := xo) (n := n) (t := t) (xc := xc) (xd := xd) hi h.cap (fun j hj => h.wall c j hj (by rw [h.old c hclt hcD, hxc]; simp)) hdc (by omega) hpos
  have hfar : ∀ a, a ≠ d → a ≠ P.num → a ≠ c → ∀ j', P'.nbr a j' = P.nbr a j' := fun a h1 h2 h3 j' => by
    rw [hN, if_neg (fun g => h1 g.1), if_neg h2, if_neg (fun g => h3 g.1)]
  have hNc : ∀ j', P'.nbr c j' = (P.setNbr c i none).nbr c j' := fun j' => by
    rw [hN, if_neg (fun g => hdc g.1.symm), if_neg (by omega)]
    rfl
  have hNd : ∀ j', P'.nbr d j' = (P.setNbr d j (some P.num)).nbr d j' := fun j' => by
    rw [hN]
    by_cases hjj : j' = j
    · rw [if_pos ⟨rfl, hjj⟩, hjj, setNbr_self]
    · rw [if_neg (fun g => hjj g.2), if_neg (by omega : ¬ d = P.num), if_neg (fun g => hdc g.1), setNbr_slot hjj]
  have hNk : ∀ j', P'.nbr P.num j' = if j' = i then some d else none := fun j' => by
    rw [hN, if_neg (fun g => by omega), if_pos rfl]
  have hSne : ∀ s ∈ S, s ≠ d ∧ s ≠ P.num := fun s hs => by
    have := h0.fin s (h.beyond s hs).live
    exact ⟨fun hh => Within.ne (h.beyond s hs) hd hh.symm, by omega⟩
  have hWne : ∀ a, Within P0 xo n a → a ≠ P.num ∧ a ≠ c := fun a ha => by
    have := h0.fin a ha.live
    exact ⟨by omega, Within.ne hb ha⟩
  have hpos' : ∀ a, a ≠ P.num → P'.pos a = P.pos a := fun a ha => by rw [k3]; simp [upd, ha]
  refine ⟨P', eP, ?_, by rw [hNc, setNbr_self], fun j' hj' => by rw [hNc, setNbr_slot hj'], fun s hs hsc j' => hfar s (hSne s hs).1 (hSne s hs).2 hsc j'⟩
  refine ⟨by omega, k2, h.beyond, h.sub, fun a ha hD => by rw [hpos' a (by omega)]; exact h.old a ha hD, fun a ha => ?_, fun a ha => ?_, fun a ha hl j' => ?_, fun a j' hj' hp => ?_, fun a ha hS j' => ?_,
    fun a ha hD j' hj' => ?_, fun a ha j' hj' => ?_, fun a ha e he => ?_, h.done, fun k h1 h2 => ?_, fun k h1 h2 => ?_⟩
  · have hs := h.sub ha
    have hac : a ≠ c := by rintro rfl; exact hcD ha
    exact ⟨by rw [hpos' a (hSne a hs).2]; exact (h.gone a ha).1, fun j' => by rw [hfar a (hSne a hs).1 (hSne a hs).2 hac]; exact (h.gone a ha).2 j'⟩
  · exact ⟨by rw [hpos' a (by omega)]; exact (h.high a (by omega)).1, fun j' => by rw [hfar a (by omega) (by omega) (by omega)]; exact (h.high a (by omega)).2 j'⟩
  · rw [hfar a (by rintro rfl; exact hl hd.live) (by omega) (by rintro rfl; exact hl hb.live)]; exact h.dead a ha hl j'
  · by_cases hak : a = P.num
    · subst hak; exact k5 j'
    · rw [k4 a hak]
      rw [hpos' a hak] at hp
      exact h.wall a j' hj' hp
  · have := h0.fin a ha.live
    rw [hfar a (by rintro rfl; exact ha.not_within hd) (by omega) (by rintro rfl; exact hS hc)]; exact h.unseen a ha hS j'
  · by_cases hac : a = c
    · subst hac
      rw [hNc]
      by_cases hji : j' = i
      · subst hji; exact Or.inl (setNbr_self _ _ _ _)
      · rw [setNbr_slot hji]; exact h.prog a ha hD j' hj'
    · rw [hfar a (hSne a ha).1 (hSne a ha).2 hac]; exact h.prog a ha hD j' hj'
  · by_cases had : a = d
    · subst had
      rw [hNd]
      by_cases hjj : j' = j
      · subst hjj
        refine Or.inr ⟨P.num, c, setNbr_self _ _ _ _, hnum, by omega, hc, ?_⟩
        rcases h.inner a ha j' hj' with g | ⟨k, s, g, g1, -⟩
        · rw [← g]; exact hdj
        · rw [hdj] at g
          have := Option.some.inj g
          omega
      · rw [setNbr_slot hjj]
        rcases h.inner a ha j' hj' with g | ⟨k, s, g, g1, g2, g3⟩
        · exact Or.inl g
        · exact Or.inr ⟨k, s, g, g1, by omega, g3⟩
    · rw [hfar a had (hWne a ha).1 (hWne a ha).2]
      rcases h.inner a ha j' hj' with g | ⟨k, s, g, g1, g2, g3⟩
      · exact Or.inl g
      · exact Or.inr ⟨k, s, g, g1, by omega, g3⟩
  · have hhalf := h.half a ha e he
    by_cases hac : a = c
    · subst hac
      rw [cnt_congr (fun j' _ => hNc j')]
      by_cases hed : e = d
      · subst hed
        rw [cnt_congr (fun j' _ => hNd j')]
        have q1 := cnt_setNbr (v := none) hi hn (by simp)
        have q2 := cnt_setNbr (v := some P.num) hj hdj (by intro hh; have := Option.some.inj hh; omega)
        omega
      · rw [cnt_setNbr_ne hi (by rw [hn]; intro hh; exact hed (Option.some.inj hh).symm) (by simp), cnt_congr (fun j' _ => hfar e hed (hWne e he).1 (hWne e he).2 j')]
        exact hhalf
    · rw [cnt_congr (fun j' _ => hfar a (hSne a ha).1 (hSne a ha).2 hac j')]
      by_cases hed : e = d
      · subst hed
        have := (hSne a ha).2
        rw [cnt_congr (fun j' _ => hNd j'), cnt_setNbr_ne hj (by rw [hdj]; intro hh; exact hac (Option.some.inj hh).symm) (by intro hh; exact this (Option.some.inj hh).symm)]
        exact hhalf
      · rw [cnt_congr (fun j' _ => hfar e hed (hWne e he).1 (hWne e he).2 j')]
        exact hhalf
  · by_cases hk : k = P.num
    · subst hk
      refine ⟨i, d, hi, hd, by rw [hNk, if_pos rfl], fun j' _ hne => by rw [hNk, if_neg hne], ?_, fun e he hne => ?_⟩
      · rw [cnt_congr (fun j' _ => hNd j'), cnt_setNbr_new hj (by rw [hdj]; intro hh; have := Option.some.inj hh; omega), h.cnt_fresh h0 hd]
      · rw [cnt_congr (fun j' _ => hfar e hne (hWne e he).1 (hWne e he).2 j')]
        exact h.cnt_fresh h0 he
    · obtain ⟨j', d', g1, g2, g3, g4, g5, g6⟩ := h.new k h1 (by omega)
      have hcnt : ∀ e, Within P0 xo n e → P'.cnt e k = P.cnt e k := fun e he => by
        by_cases hed : e = d
        · subst hed
          rw [cnt_congr (fun j' _ => hNd j'), cnt_setNbr_ne hj (by rw [hdj]; intro hh; have := Option.some.inj hh; omega) (by intro hh; exact hk (Option.some.inj hh).symm)]
        · exact cnt_congr (fun j' _ => hfar e hed (hWne e he).1 (hWne e he).2 j') k
      have hkN : ∀ j', P'.nbr k j' = P.nbr k j' := hfar k (by omega) hk (by omega)
      exact ⟨j', d', g1, g2, by rw [hkN]; exact g3, fun q hq hne => by rw [hkN]; exact g4 q hq hne, by rw [hcnt d' g2]; exact g5, fun e he hne => by rw [hcnt e he]; exact g6 e he hne⟩
  · by_cases hk : k = P.num
    · subst hk
      exact ⟨c, d, xc, xd, hc, hd, hxc, hxd, by rw [k3]; simp [upd]⟩
    · obtain ⟨c', d', xc', xd', g⟩ := h.place k h1 (by omega)
      exact ⟨c', d', xc', xd', g.1, g.2.1, g.2.2.1, g.2.2.2.1, by rw [hpos' k hk]; exact g.2.2.2.2⟩

theorem TrimInv.mark (h0 : P0.WF) {P : Poly} {S D : Finset Nat} (h : TrimInv P0 xo n P S D) {c : Nat} (hc : Beyond P0 xo n c) (hS : c ∉ S) : TrimInv P0 xo n P (insert c S) D := by
  have hclt := h0.fin c hc.live
  refine ⟨h.num, h.cap, fun a ha => ?_, h.sub.trans (Finset.subset_insert _ _), h.old, h.gone, h.high, h.dead, h.wall, fun a ha hn => h.unseen a ha fun g => hn (Finset.mem_insert_of_mem g), fun a ha hD j hj => ?_,
    fun a ha j hj => ?_, fun a ha d hd => ?_, fun a ha j hj d hd => ?_, h.new, fun k h1 h2 => ?_⟩
  · rcases Finset.mem_insert.1 ha with rfl | ha
    · exact hc
    · exact h.beyond a ha
  · rcases Finset.mem_insert.1 ha with rfl | ha
    · exact Or.inr (h.unseen a hc hS j)
    · exact h.prog a ha hD j hj
  · rcases h.inner a ha j hj with g | ⟨k, s, g1, g2, g3, g4, g5⟩
    · exact Or.inl g
    · exact Or.inr ⟨k, s, g1, g2, g3, Finset.mem_insert_of_mem g4, g5⟩
  · rcases Finset.mem_insert.1 ha with rfl | ha
    · rw [cnt_congr (fun j _ => h.unseen a hc hS j), h0.sym a d hc.live hd.live]
      have key : ∀ j, j < 3 → (P0.nbr d j = some a ↔ P.nbr d j = some a) := fun j hj => by
        rcases h.inner d hd j hj with g | ⟨k, s, g1, g2, g3, g4, g5⟩
        · rw [g]
        · rw [g1, g5]
          constructor
          · intro hh; exact absurd (Option.some.inj hh ▸ g4) hS
          · intro hh; have := Option.some.inj hh; omega
      unfold Poly.cnt
      simp only [key 0 (by omega), key 1 (by omega), key 2 (by omega)]
    · exact h.half a ha d hd
  · rcases h.done a ha j hj d hd with g | g
    · exact Or.inl (Finset.mem_insert_of_mem g)
    · exact Or.inr g
  · obtain ⟨a, d, xc, xd, g1, g2⟩ := h.place k h1 h2
    exact ⟨a, d, xc, xd, Finset.mem_insert_of_mem g1, g2⟩

theorem TrimInv.remove (h0 : P0.WF) {P : Poly} {S D : Finset Nat} (h : TrimInv P0 xo n P S D) {c : Nat} (hc : c ∈ S) (h1 : ∀ i, i < 3 → ∀ e, P.nbr c i = some e → e ∈ S)
    (h2 : ∀ i, i < 3 → ∀ e, P0.nbr c i = some e → e ∈ S ∨ Within P0 xo n e) : TrimInv P0 xo n (P.delete c) S (insert c D) := by
  have hb := h.beyond c hc
  have hclt := h0.fin c hb.live
  have hnum := h.num
  have hN : ∀ a, a ≠ c → ∀ j, (P.delete c).nbr a j = P.nbr a j := fun a ha j => by simp [Poly.delete, upd, ha]
  have hNc : ∀ j, (P.delete c).nbr c j = none := fun j => by simp [Poly.delete, upd]
  have hp : ∀ a, a ≠ c → (P.delete c).pos a = P.pos a := fun a ha => by simp [Poly.delete, upd, ha]
  have hpc : (P.delete c).pos c = none := by simp [Poly.delete, upd]
  refine ⟨h.num, h.cap, h.beyond, Finset.insert_subset hc h.sub, fun a ha hD => ?_, fun a ha => ?_, fun a ha => ?_, fun a ha hl j => ?_, fun a j hj hl => ?_, fun a ha hS j => ?_, fun a ha hD j hj => ?_, fun a ha j hj => ?_,
    fun a ha d hd => ?_, fun a ha j hj d hd => ?_, fun k k1 k2 => ?_, fun k k1 k2 => ?_⟩
  · rw [Finset.mem_insert, not_or] at hD
    rw [hp a hD.1]; exact h.old a ha hD.2
  · by_cases hac : a = c
    · subst hac; exact ⟨hpc, hNc⟩
    · have := (Finset.mem_insert.1 ha).resolve_left hac
      exact ⟨by rw [hp a hac]; exact (h.gone a this).1, fun j => by rw [hN a hac]; exact (h.gone a this).2 j⟩
  · have ha' : P.num ≤ a := ha
    have hac : a ≠ c := by omega
    exact ⟨by rw [hp a hac]; exact (h.high a ha').1, fun j => by rw [hN a hac]; exact (h.high a ha').2 j⟩
  · rw [hN a (by rintro rfl; exact hl hb.live)]; exact h.dead a ha hl j
  · have hac : a ≠ c := by rintro rfl; exact hl hpc
    rw [hp a hac] at hl
    have := h.wall a j hj hl
    simpa [Poly.delete, upd, hac] using this
  · rw [hN a (by rintro rfl; exact hS hc)]; exact h.unseen a ha hS j
  · rw [Finset.mem_insert, not_or] at hD
    rw [hN a hD.1]; exact h.prog a ha hD.2 j hj
  · rw [hN a (Within.ne hb ha)]; exact h.inner a ha j hj
  · rw [cnt_congr (fun j _ => hN d (Within.ne hb hd) j)]
    by_cases hac : a = c
    · subst hac
      rw [← h.half a ha d hd, cnt_eq_zero.2 (fun j _ => by rw [hNc]; simp), cnt_eq_zero.2]
      intro j hj he
      exact (h.beyond d (h1 j hj d he)).not_within hd
    · rw [cnt_congr (fun j _ => hN a hac j)]; exact h.half a ha d hd
  · rcases Finset.mem_insert.1 ha with rfl | ha
    · exact h2 j hj d hd
    · exact h.done a ha j hj d hd
  · have k2' : k < P.num := k2
    have hkc : k ≠ c := by omega
    obtain ⟨j, e, g1, g2, g3, g4, g5, g6⟩ := h.new k k1 k2'
    exact ⟨j, e, g1, g2, by rw [hN k hkc]; exact g3, fun j' hj' hne => by rw [hN k hkc]; exact g4 j' hj' hne, by rw [cnt_congr (fun j _ => hN e (Within.ne hb g2) j)]; exact g5,
      fun e' he' hne => by rw [cnt_congr (fun j _ => hN e' (Within.ne hb he') j)]; exact g6 e' he' hne⟩
  · obtain ⟨a, d, xc, xd, g⟩ := h.place k k1 k2
    exact ⟨a, d, xc, xd, g.1, g.2.1, g.2.2.1, g.2.2.2.1, by rw [hp k (by omega)]; exact g.2.2.2.2⟩

variable (P0 xo n) in
/-- The corners that have to go and were not visited. -/
noncomputable def unvisited (S : Finset Nat) : Nat := ((Finset.range P0.num).filter fun a => Beyond P0 xo n a ∧ a ∉ S).card

theorem unvisited_mono {S S' : Finset Nat} (h : S ⊆ S') : unvisited P0 xo n S' ≤ unvisited P0 xo n S := by
  refine Finset.card_le_card fun a ha => ?_
  rw [Finset.mem_filter] at *
  exact ⟨ha.1, ha.2.1, fun g => ha.2.2 (h g)⟩

theorem unvisited_insert (h0 : P0.WF) {S : Finset Nat} {c : Nat} (hc : Beyond P0 xo n c) (hS : c ∉ S) : unvisited P0 xo n (insert c S) < unvisited P0 xo n S := by
  refine Finset.card_lt_card ⟨fun a ha => ?_, fun hsub => ?_⟩
  · rw [Finset.mem_filter] at *
    exact ⟨ha.1, ha.2.1, fun g => ha.2.2 (Finset.mem_insert_of_mem g)⟩
  · have : c ∈ (Finset.range P0.num).filter fun a => Beyond P0 xo n a ∧ a ∉ S := by
      rw [Finset.mem_filter, Finset.mem_range]; exact ⟨h0.fin c hc.live, hc, hS⟩
    have := (Finset.mem_filter.1 (hsub this)).2.2
    exact this (Finset.mem_insert_self _ _)

variable (P0 xo n) in
/-- What the recursive calls do. -/
def RecOK (rec : Nat → Nat → Poly → Option Poly) (bound : Nat) : Prop :=
  ∀ (P : Poly) (S D : Finset Nat) (d c : Nat), TrimInv P0 xo n P S D → Beyond P0 xo n d → d ∉ S → c ∈ S → (∀ s ∈ S, s ∉ D → ∃ i, i < 3 ∧ P.nbr s i = none) → unvisited P0 xo n S ≤ bound →
    ∃ P' S', rec d c P = some P' ∧ TrimInv P0 xo n P' S' (D ∪ (S' \ S)) ∧ S ⊆ S' ∧ d ∈ S' ∧ ∀ s ∈ S, s ∉ D → ∀ j, P'.nbr s j = P.nbr s j

theorem trimSlot_spec (h0 : P0.WF) {rec : Nat → Nat → Poly → Option Poly} {bound : Nat} (hrec : RecOK P0 xo n rec bound) (t : Nat) {P : Poly} {S D : Finset Nat} (h : TrimInv P0 xo n P S D) {c i : Nat}
    (hi : i < 3) (hc : c ∈ S) (hcD : c ∉ D) (hflag : ∀ s ∈ S, s ∉ D → s ≠ c → ∃ i, i < 3 ∧ P.nbr s i = none) (hb : unvisited P0 xo n S ≤ bound) :
    ∃ P' S', trimSlot rec t xo n c i P = some P' ∧ TrimInv P0 xo n P' S' (D ∪ (S' \ S)) ∧ S ⊆ S' ∧ (∀ s ∈ S, s ∉ D → s ≠ c → ∀ j, P'.nbr s j = P.nbr s j) ∧ (∀ j, j ≠ i → P'.nbr c j = P.nbr c j) ∧
      (∀ e, P'.nbr c i = some e → e ∈ S') ∧ ∀ e, P.nbr c i = some e → e ∈ S' ∨ Within P0 xo n e := by
  have hSD : D ∪ (S \ S) = D := by simp
  unfold trimSlot
  cases hn : P.nbr c i with
  | none => exact ⟨P, S, rfl, by rw [hSD]; exact h, subset_refl _, fun _ _ _ _ _ => rfl, fun _ _ => rfl, by simp [hn], by simp⟩
  | some d =>
    obtain ⟨g1, g2, g3, g4⟩ := h.nbr_live h0 hc hcD hi hn
    have hnum := h.num
    simp only
    rw [if_neg (by omega)]
    split_ifs with hvis
    · have hdS : d ∈ S := by
        by_contra hdS
        have f := fun j (hj : j < 3) => h.full h0 g2 hdS hj
        rcases hvis with g | g | g
        · exact f 0 (by omega) g
        · exact f 1 (by omega) g
        · exact f 2 (by omega) g
      refine ⟨P, S, rfl, by rw [hSD]; exact h, subset_refl _, fun _ _ _ _ _ => rfl, fun _ _ => rfl, fun e he => ?_, fun e he => ?_⟩
      · rw [hn] at he; exact Option.some.inj he ▸ hdS
      · exact Or.inl (Option.some.inj he ▸ hdS)
    · have hdS : d ∉ S := by
        intro hdS
        apply hvis
        by_cases hdD : d ∈ D
        · exact Or.inl ((h.gone d hdD).2 0)
        · obtain ⟨j, hj, hjn⟩ := hflag d hdS hdD g3
          interval_cases j
          · exact Or.inl hjn
          · exact Or.inr (Or.inl hjn)
          · exact Or.inr (Or.inr hjn)
      have hclt := h0.fin c (h.beyond c hc).live
      obtain ⟨xc, hxc⟩ := Option.ne_none_iff_exists'.1 (h.beyond c hc).live
      obtain ⟨xd, hxd⟩ := Option.ne_none_iff_exists'.1 g2
      rw [h.old c hclt hcD, hxc, h.old d g4 (fun g => hdS (h.sub g)), hxd]
      simp only
      split_ifs with hside
      · have hdb : Beyond P0 xo n d := ⟨xd, hxd, hside⟩
        obtain ⟨P', S', e1, e2, e3, e4, e5⟩ := hrec _ S D d c (h.break h0 hc hcD hi hn hdb) hdb hdS hc (fun s hs hsD => by
          by_cases hsc : s = c
          · subst hsc; exact ⟨i, hi, setNbr_self _ _ _ _⟩
          · obtain ⟨j, hj, hjn⟩ := hflag s hs hsD hsc
            exact ⟨j, hj, by rw [setNbr_other hsc]; exact hjn⟩) hb
        refine ⟨P', S', e1, e2, e3, fun s hs hsD hsc j => by rw [e5 s hs hsD, setNbr_other hsc], fun j hj => by rw [e5 c hc hcD, setNbr_slot hj], fun e he => ?_, fun e he => ?_⟩
        · rw [e5 c hc hcD, setNbr_self] at he; simp at he
        · exact Or.inl (Option.some.inj he ▸ e4)
      · have hdw : Within P0 xo n d := ⟨xd, hxd, hside⟩
        obtain ⟨P', e1, e2, e3, e4, e5⟩ := h.cut h0 (t := t) hc hcD hi hn hdw hxc hxd
        refine ⟨P', S, e1, by rw [hSD]; exact e2, subset_refl _, fun s hs _ hsc j => e5 s hs hsc j, e4, fun e he => by rw [e3] at he; simp at he, fun e he => ?_⟩
        exact Or.inr (Option.some.inj he ▸ hdw)

theorem sdiff_chain {S S1 S2 D : Finset Nat} (h1 : S ⊆ S1) (h2 : S1 ⊆ S2) : (D ∪ (S1 \ S)) ∪ (S2 \ S1) = D ∪ (S2 \ S) := by
  ext a
  simp only [Finset.mem_union, Finset.mem_sdiff]
  constructor
  · rintro ((h | ⟨h, g⟩) | ⟨h, g⟩)
    · exact Or.inl h
    · exact Or.inr ⟨h2 h, g⟩
    · exact Or.inr ⟨h, fun k => g (h1 k)⟩
  · rintro (h | ⟨h, g⟩)
    · exact Or.inl (Or.inl h)
    · by_cases k : a ∈ S1
      · exact Or.inl (Or.inr ⟨k, g⟩)
      · exact Or.inr ⟨h, k⟩

theorem trimSlots_spec (h0 : P0.WF) {rec : Nat → Nat → Poly → Option Poly} {bound : Nat} (hrec : RecOK P0 xo n rec bound) (t : Nat) {P : Poly} {S D : Finset Nat} (h : TrimInv P0 xo n P S D) {c : Nat} (io : Nat)
    (hc : c ∈ S) (hcD : c ∉ D) (hflag : ∀ s ∈ S, s ∉ D → s ≠ c → ∃ i, i < 3 ∧ P.nbr s i = none) (hb : unvisited P0 xo n S ≤ bound) :
    ∃ P' S', trimSlots rec t xo n c io P = some P' ∧ TrimInv P0 xo n P' S' (D ∪ (S' \ S)) ∧ S ⊆ S' ∧ (∀ s ∈ S, s ∉ D → s ≠ c → ∀ j, P'.nbr s j = P.nbr s j) ∧
      (∀ i, i < 3 → ∀ e, P'.nbr c i = some e → e ∈ S') ∧ ∀ i, i < 3 → ∀ e, P.nbr c i = some e → e ∈ S' ∨ Within P0 xo n e := by
  have next : ∀ {P1 : Poly} {S1 : Finset Nat}, S ⊆ S1 → (∀ s ∈ S, s ∉ D → s ≠ c → ∀ j, P1.nbr s j = P.nbr s j) →
      c ∉ D ∪ (S1 \ S) ∧ ∀ s ∈ S1, s ∉ D ∪ (S1 \ S) → s ≠ c → ∃ i, i < 3 ∧ P1.nbr s i = none := by
    intro P1 S1 hsub hsame
    refine ⟨by simp [hcD, hc], fun s hs hsD hsc => ?_⟩
    simp only [Finset.mem_union, Finset.mem_sdiff, not_or, not_and, not_not] at hsD
    obtain ⟨i, hi, hn⟩ := hflag s (hsD.2 hs) hsD.1 hsc
    exact ⟨i, hi, by rw [hsame s (hsD.2 hs) hsD.1 hsc]; exact hn⟩
  obtain ⟨P1, S1, a1, a2, a3, a4, a5, a6, a7⟩ := trimSlot_spec h0 hrec t h (i := io % 3) (by omega) hc hcD hflag hb
  obtain ⟨n1, n2⟩ := next a3 a4
  obtain ⟨P2, S2, b1, b2, b3, b4, b5, b6, b7⟩ := trimSlot_spec h0 hrec t a2 (i := (io + 1) % 3) (by omega) (a3 hc) n1 n2 ((unvisited_mono a3).trans hb)
  rw [sdiff_chain a3 b3] at b2
  have hmem : ∀ {S1 : Finset Nat} {s}, s ∈ S → s ∉ D → s ∉ D ∪ (S1 \ S) := fun hs hD => by simp [hs, hD]
  have b4' : ∀ s ∈ S, s ∉ D → s ≠ c → ∀ j, P2.nbr s j = P.nbr s j := fun s hs hD hsc j => by rw [b4 s (a3 hs) (hmem hs hD) hsc, a4 s hs hD hsc]
  obtain ⟨n3, n4⟩ := next (a3.trans b3) b4'
  obtain ⟨P3, S3, d1, d2, d3, d4, d5, d6, d7⟩ := trimSlot_spec h0 hrec t b2 (i := (io + 2) % 3) (by omega) (b3 (a3 hc)) n3 n4 ((unvisited_mono (a3.trans b3)).trans hb)
  rw [sdiff_chain (a3.trans b3) d3] at d2
  have hcov : ∀ i, i < 3 → i = io % 3 ∨ i = (io + 1) % 3 ∨ i = (io + 2) % 3 := fun i hi => by omega
  refine ⟨P3, S3, ?_, d2, a3.trans (b3.trans d3), fun s hs hD hsc j => by rw [d4 s (b3 (a3 hs)) (hmem hs hD) hsc, b4' s hs hD hsc], fun i hi e he => ?_, fun i hi e he => ?_⟩
  · unfold trimSlots
    simp only [a1, b1, d1]
  · rcases hcov i hi with rfl | rfl | rfl
    · rw [d5 _ (by omega), b5 _ (by omega)] at he
      exact d3 (b3 (a6 e he))
    · rw [d5 _ (by omega)] at he
      exact d3 (b6 e he)
    · exact d6 e he
  · rcases hcov i hi with rfl | rfl | rfl
    · exact (a7 e he).imp_left fun g => d3 (b3 g)
    · exact (b7 e (by rw [a5 _ (by omega)]; exact he)).imp_left fun g => d3 g
    · exact d7 e (by rw [b5 _ (by omega), a5 _ (by omega)]; exact he)

/-- The recursion without the ring of new corners. -/
theorem trimBody_spec (h0 : P0.WF) {rec : Nat → Nat → Poly → Option Poly} {bound : Nat} (hrec : RecOK P0 xo n rec bound) (t : Nat) {P : Poly} {S D : Finset Nat} (h : TrimInv P0 xo n P S D) {c : Nat} (io : Nat)
    (hc : Beyond P0 xo n c) (hS : c ∉ S) (hflag : ∀ s ∈ S, s ∉ D → ∃ i, i < 3 ∧ P.nbr s i = none) (hb : unvisited P0 xo n S ≤ bound + 1) :
    ∃ P1 S', trimSlots rec t xo n c io P = some P1 ∧ TrimInv P0 xo n (P1.delete c) S' (D ∪ (S' \ S)) ∧ S ⊆ S' ∧ c ∈ S' ∧ ∀ s ∈ S, s ∉ D → ∀ j, (P1.delete c).nbr s j = P.nbr s j := by
  have hcD : c ∉ D := fun g => hS (h.sub g)
  have hlt := unvisited_insert h0 hc hS
  obtain ⟨P1, S1, e1, e2, e3, e4, e5, e6⟩ := trimSlots_spec h0 hrec t (h.mark h0 hc hS) io (Finset.mem_insert_self _ _) hcD
    (fun s hs hD hsc => hflag s ((Finset.mem_insert.1 hs).resolve_left hsc) hD) (by omega)
  have hcS1 : c ∈ S1 := e3 (Finset.mem_insert_self _ _)
  refine ⟨P1, S1, e1, ?_, (Finset.subset_insert _ _).trans e3, hcS1, fun s hs hD j => ?_⟩
  · have := e2.remove h0 hcS1 e5 fun i hi e he => e6 i hi e (by rw [h.unseen c hc hS]; exact he)
    have hset : insert c (D ∪ (S1 \ insert c S)) = D ∪ (S1 \ S) := by
      ext a
      simp only [Finset.mem_insert, Finset.mem_union, Finset.mem_sdiff, not_or]
      constructor
      · rintro (rfl | g | ⟨g1, g2, g3⟩)
        · exact Or.inr ⟨hcS1, hS⟩
        · exact Or.inl g
        · exact Or.inr ⟨g1, g3⟩
      · rintro (g | ⟨g1, g2⟩)
        · exact Or.inr (Or.inl g)
        · by_cases hac : a = c
          · exact Or.inl hac
          · exact Or.inr (Or.inr ⟨g1, hac, g2⟩)
    rw [hset] at this
    exact this
  · have hsc : s ≠ c := by rintro rfl; exact hS hs
    have : (P1.delete c).nbr s j = P1.nbr s j := by simp [Poly.delete, upd, hsc]
    rw [this]
    exact e4 s (Finset.mem_insert_of_mem hs) hD hsc j

theorem trimVertex_rec (h0 : P0.WF) (t : Nat) (f : Nat) : RecOK P0 xo n (trimVertex t xo n f) f := by
  induction f with
  | zero =>
    intro P S D d c h hd hS _ _ hb
    have := unvisited_insert h0 hd hS
    omega
  | succ f ih =>
    intro P S D d c h hd hS hc hflag hb
    obtain ⟨P1, S', e1, e2, e3, e4, e5⟩ := trimBody_spec h0 ih t h (firstSlot P d c) hd hS hflag hb
    refine ⟨P1.delete d, S', ?_, e2, e3, e4, e5⟩
    unfold trimVertex
    simp only [e1]
    rw [if_neg (by rintro rfl; exact hS hc)]

theorem cnt_le {P : Poly} {c : Nat} {B : Finset Nat} : ∑ d ∈ B, P.cnt c d = (if ∃ d ∈ B, P.nbr c 0 = some d then 1 else 0) + (if ∃ d ∈ B, P.nbr c 1 = some d then 1 else 0) + (if ∃ d ∈ B, P.nbr c 2 = some d then 1 else 0) := by
  have key : ∀ o : Option Nat, ∑ d ∈ B, (if o = some d then 1 else 0) = if ∃ d ∈ B, o = some d then 1 else 0 := by
    intro o
    cases o with
    | none => simp
    | some e => simp
  unfold Poly.cnt
  rw [Finset.sum_add_distrib, Finset.sum_add_distrib, key, key, key]

/-- The slots that lead out of `A`, counted by their ends. -/
theorem leave_eq {P : Poly} {c : Nat} {A B : Finset Nat} (h : ∀ i, i < 3 → ∀ d, P.nbr c i = some d → (d ∉ A ↔ d ∈ B)) : P.leave A c = ∑ d ∈ B, P.cnt c d := by
  have key : ∀ i, i < 3 → ((∃ d, P.nbr c i = some d ∧ d ∉ A) ↔ ∃ d ∈ B, P.nbr c i = some d) := fun i hi =>
    ⟨fun ⟨d, h1, h2⟩ => ⟨d, (h i hi d h1).1 h2, h1⟩, fun ⟨d, h1, h2⟩ => ⟨d, h2, (h i hi d h2).2 h1⟩⟩
  rw [cnt_le]
  unfold Poly.leave
  simp only [key 0 (by omega), key 1 (by omega), key 2 (by omega)]

/-- A set and its complement are left by equally many slots. -/
theorem leave_compl {P : Poly} {L A : Finset Nat} (hL : ∀ c ∈ L, P.Live c) (hA : A ⊆ L) (out : ∀ c i, i < 3 → P.Live c → ∃ d, P.nbr c i = some d ∧ d ∈ L)
    (sym : ∀ c d, P.Live c → P.Live d → P.cnt c d = P.cnt d c) : ∑ c ∈ A, P.leave A c = ∑ c ∈ L \ A, P.leave (L \ A) c := by
  have h1 : ∀ c ∈ A, P.leave A c = ∑ d ∈ L \ A, P.cnt c d := fun c hc => leave_eq fun i hi d hd => by
    obtain ⟨d', g1, g2⟩ := out c i hi (hL c (hA hc))
    obtain rfl := Option.some.inj (hd.symm.trans g1)
    simp [g2]
  have h2 : ∀ c ∈ L \ A, P.leave (L \ A) c = ∑ d ∈ A, P.cnt c d := fun c hc => leave_eq fun i hi d hd => by
    obtain ⟨d', g1, g2⟩ := out c i hi (hL c (Finset.mem_sdiff.1 hc).1)
    obtain rfl := Option.some.inj (hd.symm.trans g1)
    simp [g2]
  rw [Finset.sum_congr rfl h1, Finset.sum_congr rfl h2, Finset.sum_comm]
  refine Finset.sum_congr rfl fun d hd => Finset.sum_congr rfl fun c hc => sym c d (hL c (hA hc)) (hL d (Finset.mem_sdiff.1 hd).1)

/-! ## The ring of new corners -/

theorem link_same (P : Poly) (lo i : Nat) : (P.link lo i).num = P.num ∧ (P.link lo i).cap = P.cap ∧ (P.link lo i).pos = P.pos ∧ (P.link lo i).wall = P.wall := by
  unfold Poly.link
  split <;> exact ⟨rfl, rfl, rfl, rfl⟩

theorem link_other {P : Poly} {lo i a : Nat} (h : a ≠ i) : (P.link lo i).nbr a = P.nbr a := by
  unfold Poly.link
  split
  · ext1 j; rw [setNbr_other h, setNbr_other h]
  · rfl

theorem link_congr {P Q : Poly} {lo a : Nat} (h1 : P.num = Q.num) (h2 : P.nbr a = Q.nbr a) : (P.link lo a).nbr a = (Q.link lo a).nbr a := by
  have hs : P.slot a (fun o => o.isSome) = Q.slot a (fun o => o.isSome) := by unfold Poly.slot; rw [h2]
  unfold Poly.link
  rw [hs]
  split
  · ext1 j; simp only [Poly.setNbr, h1, h2]
  · exact h2

theorem linkRing_same (lo k : Nat) : ∀ (i : Nat) (P : Poly), (linkRing lo k i P).num = P.num ∧ (linkRing lo k i P).cap = P.cap ∧ (linkRing lo k i P).pos = P.pos ∧ (linkRing lo k i P).wall = P.wall := by
  induction k with
  | zero => intro i P; exact ⟨rfl, rfl, rfl, rfl⟩
  | succ k ih =>
    intro i P
    have h := ih (i + 1) (P.link lo i)
    have g := link_same P lo i
    unfold linkRing
    exact ⟨h.1.trans g.1, h.2.1.trans g.2.1, h.2.2.1.trans g.2.2.1, h.2.2.2.trans g.2.2.2⟩

theorem linkRing_nbr (lo k : Nat) : ∀ (i : Nat) (P : Poly) (a : Nat), (linkRing lo k i P).nbr a = if i ≤ a ∧ a < i + k then (P.link lo a).nbr a else P.nbr a := by
  induction k with
  | zero => intro i P a; rw [if_neg (by omega)]; rfl
  | succ k ih =>
    intro i P a
    unfold linkRing
    rw [ih]
    by_cases hai : a = i
    · subst hai
      rw [if_neg (by omega), if_pos (by omega)]
    · rw [link_congr (link_same P lo i).1 (link_other hai), link_other hai]
      by_cases h : i ≤ a ∧ a < i + (k + 1)
      · rw [if_pos h, if_pos (by omega)]
      · rw [if_neg h, if_neg (by omega)]

/-- The next corner of the ring. -/
def ringNext (lo hi k : Nat) : Nat := if k + 1 = hi then lo else k + 1

/-- The previous corner of the ring. -/
def ringPrev (lo hi k : Nat) : Nat := if lo < k then k - 1 else hi - 1

theorem link_slots {P : Poly} {lo k j d : Nat} (hj : j < 3) (h1 : P.nbr k j = some d) (h2 : ∀ j', j' < 3 → j' ≠ j → P.nbr k j' = none) :
    (P.link lo k).nbr k j = some d ∧ (P.link lo k).nbr k ((j + 1) % 3) = some (ringNext lo P.num k) ∧ (P.link lo k).nbr k ((j + 2) % 3) = some (ringPrev lo P.num k) := by
  have hs : P.slot k (fun o => o.isSome) = some j := by
    rcases slot_spec (P := P) (c := k) (p := fun o => o.isSome) with ⟨j', g1, g2, g3⟩ | ⟨-, g⟩
    · by_cases hjj : j' = j
      · rw [g1, hjj]
      · rw [h2 j' g2 hjj] at g3; simp at g3
    · have := g j hj; rw [h1] at this; simp at this
  unfold Poly.link
  rw [hs]
  simp only
  refine ⟨?_, ?_, ?_⟩
  · rw [setNbr_slot (by omega), setNbr_slot (by omega), h1]
  · rw [setNbr_slot (by omega), setNbr_self]; rfl
  · rw [setNbr_self]; rfl

/-- The polytope after `trim_vertex`, in terms of the state before the ring is closed. -/
structure Ringed (lo : Nat) (Q R : Poly) : Prop where
  num : R.num = Q.num
  cap : R.cap = Q.cap
  pos : R.pos = Q.pos
  wall : R.wall = Q.wall
  old : ∀ a, a < lo ∨ Q.num ≤ a → R.nbr a = Q.nbr a
  ring : ∀ k, lo ≤ k → k < Q.num → ∀ j d, j < 3 → Q.nbr k j = some d → (∀ j', j' < 3 → j' ≠ j → Q.nbr k j' = none) →
    R.nbr k j = some d ∧ R.nbr k ((j + 1) % 3) = some (ringNext lo Q.num k) ∧ R.nbr k ((j + 2) % 3) = some (ringPrev lo Q.num k)

theorem linkRing_ringed {lo : Nat} {Q : Poly} (h : lo ≤ Q.num) : Ringed lo Q (linkRing lo (Q.num - lo) lo Q) := by
  obtain ⟨g1, g2, g3, g4⟩ := linkRing_same lo (Q.num - lo) lo Q
  refine ⟨g1, g2, g3, g4, fun a ha => ?_, fun k h1 h2 j d hj e1 e2 => ?_⟩
  · rw [linkRing_nbr, if_neg (by omega)]
  · rw [linkRing_nbr, if_pos (by omega)]
    exact link_slots hj e1 e2

section

variable {Q R : Poly} {S : Finset Nat}

/-- After the recursion no slot that is left leads to a corner that is gone. -/
theorem TrimInv.no_gone (h0 : P0.WF) (h : TrimInv P0 xo n Q S S) {c i d : Nat} (hi : i < 3) (hc : P0.Live c) (hcS : c ∉ S) (hn : Q.nbr c i = some d) : d ∉ S := by
  intro hd
  rcases live_cases (xo := xo) (n := n) hc with hb | hw
  · rw [h.unseen c hb hcS] at hn
    have h1 := cnt_pos hi hn
    rw [h0.sym c d hc (h.beyond d hd).live] at h1
    obtain ⟨j, hj, hjn⟩ : ∃ j, j < 3 ∧ P0.nbr d j = some c := by
      by_contra hno
      push Not at hno
      have := cnt_eq_zero.2 hno
      omega
    rcases h.done d hd j hj c hjn with g | g
    · exact hcS g
    · exact hb.not_within g
  · have h1 := cnt_pos hi hn
    rw [← h.half d hd c hw] at h1
    have : Q.cnt d c = 0 := cnt_eq_zero.2 fun j _ => by rw [(h.gone d hd).2]; simp
    omega

/-- A slot of a corner that is left: as before, or to a new corner in the place of one that is gone. -/
theorem TrimInv.old_slot (h0 : P0.WF) (h : TrimInv P0 xo n Q S S) {c i : Nat} (hi : i < 3) (hc : P0.Live c) (hcS : c ∉ S) :
    (Q.nbr c i = P0.nbr c i ∧ ∃ d, P0.nbr c i = some d ∧ d ∉ S ∧ P0.Live d ∧ d ≠ c) ∨ (Within P0 xo n c ∧ ∃ k s, Q.nbr c i = some k ∧ P0.num ≤ k ∧ k < Q.num ∧ s ∈ S ∧ P0.nbr c i = some s) := by
  obtain ⟨d, g1, g2, g3⟩ := h0.out c i hi hc
  have same : Q.nbr c i = P0.nbr c i → (Q.nbr c i = P0.nbr c i ∧ ∃ d, P0.nbr c i = some d ∧ d ∉ S ∧ P0.Live d ∧ d ≠ c) := fun e =>
    ⟨e, d, g1, h.no_gone h0 hi hc hcS (e.trans g1), g2, g3⟩
  rcases live_cases (xo := xo) (n := n) hc with hb | hw
  · exact Or.inl (same (h.unseen c hb hcS i))
  · rcases h.inner c hw i hi with g | g
    · exact Or.inl (same g)
    · exact Or.inr ⟨hw, g⟩

/-- As many new corners as edges that were cut. -/
theorem TrimInv.ring_card (h0 : P0.WF) (h : TrimInv P0 xo n Q S S) : Q.num - P0.num ≠ 1 := by
  have hlt : ∀ {d}, Within P0 xo n d → d ∈ (Finset.range P0.num).filter (fun d => Within P0 xo n d) := fun hd => by
    rw [Finset.mem_filter, Finset.mem_range]; exact ⟨h0.fin _ hd.live, hd⟩
  have h1 : ∀ s ∈ S, P0.leave S s = ∑ d ∈ (Finset.range P0.num).filter (fun d => Within P0 xo n d), P0.cnt s d := fun s hs => leave_eq fun i hi d hd => by
    constructor
    · intro hdS
      exact hlt ((h.done s hs i hi d hd).resolve_left hdS)
    · intro hdW hdS
      exact (h.beyond d hdS).not_within (Finset.mem_filter.1 hdW).2
  have h2 : ∀ d ∈ (Finset.range P0.num).filter (fun d => Within P0 xo n d), ∑ s ∈ S, P0.cnt s d = ∑ k ∈ Finset.Ico P0.num Q.num, Q.cnt d k := fun d hd => by
    have hdW := (Finset.mem_filter.1 hd).2
    have hdS : d ∉ S := fun g => (h.beyond d g).not_within hdW
    rw [Finset.sum_congr rfl fun s hs => h0.sym s d (h.beyond s hs).live hdW.live, cnt_le, cnt_le]
    have key : ∀ i, i < 3 → ((∃ s ∈ S, P0.nbr d i = some s) ↔ ∃ k ∈ Finset.Ico P0.num Q.num, Q.nbr d i = some k) := fun i hi => by
      rcases h.old_slot h0 hi hdW.live hdS with ⟨e, a, e1, e2, e3, e4⟩ | ⟨-, k, s, e1, e2, e3, e4, e5⟩
      · constructor
        · rintro ⟨s, hs, g⟩
          exact absurd (Option.some.inj (e1.symm.trans g) ▸ hs) e2
        · rintro ⟨k, hk, g⟩
          have := Option.some.inj ((e.trans e1).symm.trans g)
          have := h0.fin a e3
          have := Finset.mem_Ico.1 hk
          omega
      · exact ⟨fun _ => ⟨k, Finset.mem_Ico.2 ⟨e2, e3⟩, e1⟩, fun _ => ⟨s, e4, e5⟩⟩
    simp only [key 0 (by omega), key 1 (by omega), key 2 (by omega)]
  have h3 : ∀ k ∈ Finset.Ico P0.num Q.num, ∑ d ∈ (Finset.range P0.num).filter (fun d => Within P0 xo n d), Q.cnt d k = 1 := fun k hk => by
    obtain ⟨k1, k2⟩ := Finset.mem_Ico.1 hk
    obtain ⟨i, d, g1, g2, g3, g4, g5, g6⟩ := h.new k k1 k2
    rw [Finset.sum_eq_single_of_mem d (hlt g2) fun e he hne => g6 e (Finset.mem_filter.1 he).2 hne, g5]
  have := h0.bridge S fun c hc => (h.beyond c hc).live
  rw [Finset.sum_congr rfl h1, Finset.sum_comm, Finset.sum_congr rfl h2, Finset.sum_comm, Finset.sum_congr rfl h3, Finset.sum_const, Nat.card_Ico] at this
  simpa using this

theorem TrimInv.new_live (h : TrimInv P0 xo n Q S S) {k : Nat} (h1 : P0.num ≤ k) (h2 : k < Q.num) : Q.pos k ≠ none := by
  obtain ⟨_, _, _, _, -, -, -, -, g⟩ := h.place k h1 h2
  rw [g]; simp

/-- Which corners are left. -/
theorem TrimInv.live_iff (h0 : P0.WF) (h : TrimInv P0 xo n Q S S) (c : Nat) : Q.pos c ≠ none ↔ (P0.Live c ∧ c ∉ S) ∨ (P0.num ≤ c ∧ c < Q.num) := by
  by_cases h1 : c < P0.num
  · by_cases hS : c ∈ S
    · rw [(h.gone c hS).1]; simp [hS]; omega
    · rw [h.old c h1 hS]; simp [hS, Poly.Live]; omega
  · have hd : ¬ P0.Live c := fun g => h1 (h0.fin c g)
    by_cases h2 : c < Q.num
    · exact ⟨fun _ => Or.inr ⟨by omega, h2⟩, fun _ => h.new_live (by omega) h2⟩
    · rw [(h.high c (by omega)).1]; simp [hd, h2]

theorem ringNext_mem {lo hi k : Nat} (h1 : lo ≤ k) (h2 : k < hi) : lo ≤ ringNext lo hi k ∧ ringNext lo hi k < hi ∧ (hi - lo ≠ 1 → ringNext lo hi k ≠ k) := by
  unfold ringNext; split_ifs <;> omega

theorem ringPrev_mem {lo hi k : Nat} (h1 : lo ≤ k) (h2 : k < hi) : lo ≤ ringPrev lo hi k ∧ ringPrev lo hi k < hi ∧ (hi - lo ≠ 1 → ringPrev lo hi k ≠ k) := by
  unfold ringPrev; split_ifs <;> omega

theorem ringNext_iff {lo hi k l : Nat} (h1 : lo ≤ k) (h2 : k < hi) (h3 : lo ≤ l) (h4 : l < hi) : ringNext lo hi k = l ↔ ringPrev lo hi l = k := by
  unfold ringNext ringPrev; split_ifs <;> omega

/-- A set that is closed under `next` has all of the ring. -/
theorem ring_closed {lo hi : Nat} {p : Nat → Prop} (hn : ∀ k, lo ≤ k → k < hi → p k → p (ringNext lo hi k)) {k : Nat} (h1 : lo ≤ k) (h2 : k < hi) (hk : p k) : ∀ l, lo ≤ l → l < hi → p l := by
  have up : ∀ a b, lo ≤ a → a + b < hi → p a → p (a + b) := by
    intro a b ha
    induction b with
    | zero => exact fun _ g => g
    | succ b ih =>
      intro g1 g2
      have := hn (a + b) (by omega) (by omega) (ih (by omega) g2)
      unfold ringNext at this
      rwa [if_neg (by omega)] at this
  have top := up k (hi - 1 - k) h1 (by omega) hk
  have hlo : p lo := by
    have := hn (hi - 1) (by omega) (by omega) (by have e : k + (hi - 1 - k) = hi - 1 := by omega
                                                  rwa [e] at top)
    unfold ringNext at this
    rwa [if_pos (by omega)] at this
  intro l g1 g2
  have := up lo (l - lo) (le_refl _) (by omega) hlo
  have e : lo + (l - lo) = l := by omega
  rwa [e] at this

theorem ring_closed_prev {lo hi : Nat} {p : Nat → Prop} (hn : ∀ k, lo ≤ k → k < hi → p k → p (ringPrev lo hi k)) {k : Nat} (h1 : lo ≤ k) (h2 : k < hi) (hk : p k) : ∀ l, lo ≤ l → l < hi → p l := by
  intro l g1 g2
  by_contra hl
  refine ring_closed (p := fun a => ¬ p a) (fun a ha hb hp hq => hp ?_) g1 g2 hl k h1 h2 hk
  have hm := ringNext_mem ha hb
  have := hn _ hm.1 hm.2.1 hq
  rwa [(ringNext_iff ha hb hm.1 hm.2.1).1 rfl] at this

/-- The slots of a new corner. -/
theorem TrimInv.ring_slots (h : TrimInv P0 xo n Q S S) (hR : Ringed P0.num Q R) {k : Nat} (h1 : P0.num ≤ k) (h2 : k < Q.num) :
    ∃ j d, j < 3 ∧ Within P0 xo n d ∧ Q.cnt d k = 1 ∧ (∀ e, Within P0 xo n e → e ≠ d → Q.cnt e k = 0) ∧ R.nbr k j = some d ∧ R.nbr k ((j + 1) % 3) = some (ringNext P0.num Q.num k) ∧
      R.nbr k ((j + 2) % 3) = some (ringPrev P0.num Q.num k) := by
  obtain ⟨j, d, g1, g2, g3, g4, g5, g6⟩ := h.new k h1 h2
  obtain ⟨e1, e2, e3⟩ := hR.ring k h1 h2 j d g1 g3 g4
  exact ⟨j, d, g1, g2, g5, g6, e1, e2, e3⟩

theorem cnt_slots {P : Poly} {k j : Nat} (hj : j < 3) (a : Nat) :
    P.cnt k a = (if P.nbr k j = some a then 1 else 0) + (if P.nbr k ((j + 1) % 3) = some a then 1 else 0) + (if P.nbr k ((j + 2) % 3) = some a then 1 else 0) := by
  unfold Poly.cnt
  interval_cases j <;> simp <;> omega

theorem leave_slots {P : Poly} {k j : Nat} (hj : j < 3) (A : Finset Nat) :
    P.leave A k = (if ∃ d, P.nbr k j = some d ∧ d ∉ A then 1 else 0) + (if ∃ d, P.nbr k ((j + 1) % 3) = some d ∧ d ∉ A then 1 else 0) + (if ∃ d, P.nbr k ((j + 2) % 3) = some d ∧ d ∉ A then 1 else 0) := by
  unfold Poly.leave
  interval_cases j <;> simp <;> omega

/-- The polytope after the ring is closed. -/
theorem TrimInv.wf (h0 : P0.WF) (h : TrimInv P0 xo n Q S S) (hR : Ringed P0.num Q R) : R.WF := by
  have hnum := h.num
  have hm := h.ring_card h0
  have hlive : ∀ c, R.Live c ↔ (P0.Live c ∧ c ∉ S) ∨ (P0.num ≤ c ∧ c < Q.num) := fun c => by
    rw [← h.live_iff h0 c, ← hR.pos]; rfl
  have hnew : ∀ {k}, P0.num ≤ k → k < Q.num → R.Live k := fun h1 h2 => (hlive _).2 (Or.inr ⟨h1, h2⟩)
  have hold : ∀ {c}, P0.Live c → c ∉ S → R.Live c := fun h1 h2 => (hlive _).2 (Or.inl ⟨h1, h2⟩)
  have hwS : ∀ {d}, Within P0 xo n d → d ∉ S := fun hd g => (h.beyond _ g).not_within hd
  have onb : ∀ {c}, P0.Live c → R.nbr c = Q.nbr c := fun hc => hR.old _ (Or.inl (h0.fin _ hc))
  have out : ∀ c i, i < 3 → R.Live c → ∃ d, R.nbr c i = some d ∧ R.Live d ∧ d ≠ c := by
    intro c i hi hc
    rcases (hlive c).1 hc with ⟨g1, g2⟩ | ⟨g1, g2⟩
    · rw [onb g1]
      rcases h.old_slot h0 hi g1 g2 with ⟨e, d, e1, e2, e3, e4⟩ | ⟨-, k, s, e1, e2, e3, -⟩
      · exact ⟨d, e.trans e1, hold e3 e2, e4⟩
      · exact ⟨k, e1, hnew e2 e3, by have := h0.fin c g1; omega⟩
    · obtain ⟨j, d, hj, hd, -, -, e1, e2, e3⟩ := h.ring_slots hR g1 g2
      have n1 := ringNext_mem g1 g2
      have n2 := ringPrev_mem g1 g2
      have hcov : i = j ∨ i = (j + 1) % 3 ∨ i = (j + 2) % 3 := by omega
      rcases hcov with rfl | rfl | rfl
      · exact ⟨d, e1, hold hd.live (hwS hd), by have := h0.fin d hd.live; omega⟩
      · exact ⟨_, e2, hnew n1.1 n1.2.1, n1.2.2 hm⟩
      · exact ⟨_, e3, hnew n2.1 n2.2.1, n2.2.2 hm⟩
  have old_old : ∀ {c d}, P0.Live c → c ∉ S → P0.Live d → d ∉ S → R.cnt c d = P0.cnt c d := fun {c d} hc hcS hd hdS => by
    have key : ∀ i, i < 3 → (R.nbr c i = some d ↔ P0.nbr c i = some d) := fun i hi => by
      rw [onb hc]
      rcases h.old_slot h0 hi hc hcS with ⟨e, -⟩ | ⟨-, k, s, e1, e2, e3, e4, e5⟩
      · rw [e]
      · rw [e1, e5]
        have := h0.fin d hd
        constructor
        · intro g; have := Option.some.inj g; omega
        · intro g; exact absurd (Option.some.inj g ▸ e4) hdS
    unfold Poly.cnt
    simp only [key 0 (by omega), key 1 (by omega), key 2 (by omega)]
  have old_new : ∀ {c k}, P0.Live c → c ∉ S → P0.num ≤ k → k < Q.num → R.cnt c k = R.cnt k c := fun {c k} hc hcS h1 h2 => by
    obtain ⟨j, d, hj, hd, g1, g2, e1, e2, e3⟩ := h.ring_slots hR h1 h2
    have n1 := ringNext_mem h1 h2
    have n2 := ringPrev_mem h1 h2
    have hclt := h0.fin c hc
    rw [cnt_slots hj c, e1, e2, e3, if_neg (show ¬ some (ringNext P0.num Q.num k) = some c by simp only [Option.some.injEq]; omega),
      if_neg (show ¬ some (ringPrev P0.num Q.num k) = some c by simp only [Option.some.injEq]; omega), cnt_congr (Q := Q) (fun i _ => by rw [onb hc])]
    rcases live_cases (xo := xo) (n := n) hc with hb | hw
    · have hcd : d ≠ c := by rintro rfl; exact hb.not_within hd
      rw [if_neg (by simpa using hcd), cnt_eq_zero.2]
      intro i hi g
      rw [h.unseen c hb hcS] at g
      obtain ⟨d', q1, q2, -⟩ := h0.out c i hi hc
      have := h0.fin d' q2
      have := Option.some.inj (q1.symm.trans g)
      omega
    · by_cases hcd : d = c
      · subst hcd; rw [if_pos rfl, g1]
      · rw [if_neg (by simpa using hcd), g2 c hw (Ne.symm hcd)]
  have new_new : ∀ {k l}, P0.num ≤ k → k < Q.num → P0.num ≤ l → l < Q.num → R.cnt k l = R.cnt l k := fun {k l} h1 h2 h3 h4 => by
    obtain ⟨j, d, hj, hd, -, -, e1, e2, e3⟩ := h.ring_slots hR h1 h2
    obtain ⟨j', d', hj', hd', -, -, e1', e2', e3'⟩ := h.ring_slots hR h3 h4
    have q1 := h0.fin d hd.live
    have q2 := h0.fin d' hd'.live
    rw [cnt_slots hj, cnt_slots hj' k, e1, e2, e3, e1', e2', e3', if_neg (show ¬ some d = some l by simp only [Option.some.injEq]; omega),
      if_neg (show ¬ some d' = some k by simp only [Option.some.injEq]; omega)]
    simp only [Option.some.injEq, ringNext_iff h1 h2 h3 h4, ← ringNext_iff h3 h4 h1 h2]
    omega
  have sym : ∀ c d, R.Live c → R.Live d → R.cnt c d = R.cnt d c := by
    intro c d hc hd
    rcases (hlive c).1 hc with ⟨g1, g2⟩ | ⟨g1, g2⟩
    · rcases (hlive d).1 hd with ⟨g3, g4⟩ | ⟨g3, g4⟩
      · rw [old_old g1 g2 g3 g4, old_old g3 g4 g1 g2]; exact h0.sym c d g1 g3
      · exact old_new g1 g2 g3 g4
    · rcases (hlive d).1 hd with ⟨g3, g4⟩ | ⟨g3, g4⟩
      · exact (old_new g3 g4 g1 g2).symm
      · exact new_new g1 g2 g3 g4
  have none_new : ∀ A : Finset Nat, (∀ c ∈ A, R.Live c) → (∀ k ∈ A, ¬ (P0.num ≤ k ∧ k < Q.num)) → ∑ c ∈ A, R.leave A c ≠ 1 := by
    intro A hA hno
    have hA' : ∀ c ∈ A, P0.Live c ∧ c ∉ S := fun c hc => ((hlive c).1 (hA c hc)).resolve_right (hno c hc)
    have : ∀ c ∈ A, R.leave A c = P0.leave A c := fun c hc => by
      have key : ∀ i, i < 3 → ((∃ d, R.nbr c i = some d ∧ d ∉ A) ↔ ∃ d, P0.nbr c i = some d ∧ d ∉ A) := fun i hi => by
        rw [onb (hA' c hc).1]
        rcases h.old_slot h0 hi (hA' c hc).1 (hA' c hc).2 with ⟨e, -⟩ | ⟨-, k, s, e1, e2, e3, e4, e5⟩
        · rw [e]
        · exact ⟨fun _ => ⟨s, e5, fun g => (hA' s g).2 e4⟩, fun _ => ⟨k, e1, fun g => hno k g ⟨e2, e3⟩⟩⟩
      unfold Poly.leave
      simp only [key 0 (by omega), key 1 (by omega), key 2 (by omega)]
    rw [Finset.sum_congr rfl this]
    exact h0.bridge A fun c hc => (hA' c hc).1
  have fin : ∀ c, R.Live c → c < R.num := fun c hc => by
    rw [hR.num]
    rcases (hlive c).1 hc with g | g
    · have := h0.fin c g.1; omega
    · exact g.2
  refine ⟨by rw [hR.num, hR.cap]; exact h.cap, fin, out, fun c i hc => ?_, fun c i hi hc => ?_, sym, fun A hA => ?_⟩
  · by_cases h1 : c < P0.num
    · rw [hR.old c (Or.inl h1)]
      by_cases hS : c ∈ S
      · exact (h.gone c hS).2 i
      · exact h.dead c h1 (fun g => hc (hold g hS)) i
    · by_cases h2 : c < Q.num
      · exact absurd (hnew (by omega) h2) hc
      · rw [hR.old c (Or.inr (by omega))]; exact (h.high c (by omega)).2 i
  · rw [hR.wall]; exact h.wall c i hi (by rw [← hR.pos]; exact hc)
  · by_cases hno : ∀ k ∈ A, ¬ (P0.num ≤ k ∧ k < Q.num)
    · exact none_new A hA hno
    · push Not at hno
      obtain ⟨k, hk, k1, k2⟩ := hno
      by_cases hall : ∀ l, P0.num ≤ l → l < Q.num → l ∈ A
      · have hmemL : ∀ c, c ∈ (Finset.range R.num).filter (fun c => R.Live c) ↔ R.Live c := fun c => by
          rw [Finset.mem_filter, Finset.mem_range]; exact ⟨fun g => g.2, fun g => ⟨fin c g, g⟩⟩
        rw [leave_compl (L := (Finset.range R.num).filter (fun c => R.Live c)) (fun c hc => (hmemL c).1 hc) (fun c hc => (hmemL c).2 (hA c hc)) (fun c i hi hc => by
          obtain ⟨d, g1, g2, -⟩ := out c i hi hc
          exact ⟨d, g1, (hmemL d).2 g2⟩) sym]
        refine none_new _ (fun c hc => (hmemL c).1 (Finset.mem_sdiff.1 hc).1) fun l hl g => (Finset.mem_sdiff.1 hl).2 (hall l g.1 g.2)
      · have e1 : ∃ a, P0.num ≤ a ∧ a < Q.num ∧ a ∈ A ∧ ringNext P0.num Q.num a ∉ A := by
          by_contra hcon
          push Not at hcon
          exact hall (ring_closed (p := fun a => a ∈ A) hcon k1 k2 hk)
        have e2 : ∃ a, P0.num ≤ a ∧ a < Q.num ∧ a ∈ A ∧ ringPrev P0.num Q.num a ∉ A := by
          by_contra hcon
          push Not at hcon
          exact hall (ring_closed_prev (p := fun a => a ∈ A) hcon k1 k2 hk)
        obtain ⟨a, a1, a2, a3, a4⟩ := e1
        obtain ⟨b, b1, b2, b3, b4⟩ := e2
        obtain ⟨j, d, hj, -, -, -, r1, r2, r3⟩ := h.ring_slots hR a1 a2
        obtain ⟨j', d', hj', -, -, -, s1, s2, s3⟩ := h.ring_slots hR b1 b2
        have la : 1 ≤ R.leave A a := by
          rw [leave_slots hj, if_pos (show ∃ d, R.nbr a ((j + 1) % 3) = some d ∧ d ∉ A from ⟨_, r2, a4⟩)]; omega
        have lb : 1 ≤ R.leave A b := by
          rw [leave_slots hj', if_pos (show ∃ d, R.nbr b ((j' + 2) % 3) = some d ∧ d ∉ A from ⟨_, s3, b4⟩)]; omega
        by_cases hab : a = b
        · subst hab
          have : 2 ≤ R.leave A a := by
            rw [leave_slots hj, if_pos (show ∃ d, R.nbr a ((j + 1) % 3) = some d ∧ d ∉ A from ⟨_, r2, a4⟩), if_pos (show ∃ d, R.nbr a ((j + 2) % 3) = some d ∧ d ∉ A from ⟨_, r3, b4⟩)]; omega
          have := Finset.single_le_sum (f := fun c => R.leave A c) (fun _ _ => Nat.zero_le _) a3
          omega
        · have hsub : ({a, b} : Finset Nat) ⊆ A := by
            intro z hz
            rcases Finset.mem_insert.1 hz with rfl | hz
            · exact a3
            · exact Finset.mem_singleton.1 hz ▸ b3
          have := Finset.sum_le_sum_of_subset (f := fun c => R.leave A c) hsub
          rw [Finset.sum_pair hab] at this
          omega

end

end

/-! ## The box -/

theorem initPoly_live {x : Nat → ℝ} {r : ℝ} {c : Nat} : (initPoly x r).Live c ↔ c < 8 := by
  unfold Poly.Live initPoly
  by_cases h : c < 8 <;> simp [h]

theorem initPoly_nbr (x : Nat → ℝ) (r : ℝ) (c i : Nat) : (initPoly x r).nbr c i = (boxNbr.getD c [])[i]? := rfl

theorem box_bridge : ∀ b0 b1 b2 b3 b4 b5 b6 b7 : Bool,
    ((if b0 then ((if !b1 then 1 else 0) + (if !b2 then 1 else 0) + (if !b4 then 1 else 0)) else 0) + (if b1 then ((if !b5 then 1 else 0) + (if !b3 then 1 else 0) + (if !b0 then 1 else 0)) else 0) +
      (if b2 then ((if !b6 then 1 else 0) + (if !b0 then 1 else 0) + (if !b3 then 1 else 0)) else 0) + (if b3 then ((if !b2 then 1 else 0) + (if !b1 then 1 else 0) + (if !b7 then 1 else 0)) else 0) +
      (if b4 then ((if !b0 then 1 else 0) + (if !b6 then 1 else 0) + (if !b5 then 1 else 0)) else 0) + (if b5 then ((if !b4 then 1 else 0) + (if !b7 then 1 else 0) + (if !b1 then 1 else 0)) else 0) +
      (if b6 then ((if !b7 then 1 else 0) + (if !b4 then 1 else 0) + (if !b2 then 1 else 0)) else 0) + (if b7 then ((if !b3 then 1 else 0) + (if !b5 then 1 else 0) + (if !b6 then 1 else 0)) else 0) : Nat) ≠ 1 := by
  decide

theorem initPoly_wf (x : Nat → ℝ) (r : ℝ) : (initPoly x r).WF := by
  refine ⟨by simp [initPoly], fun c hc => initPoly_live.1 hc, fun c i hi hc => ?_, fun c i hc => ?_, fun c i hi hc => ?_, fun c d hc hd => ?_, fun A hA => ?_⟩
  · have h := initPoly_live.1 hc
    simp only [initPoly_nbr, initPoly_live]
    interval_cases c <;> interval_cases i <;> exact ⟨_, rfl, by decide, by decide⟩
  · rw [initPoly_live] at hc
    have : boxNbr[c]? = none := List.getElem?_eq_none (by simpa [boxNbr] using hc)
    rw [initPoly_nbr, List.getD_eq_getElem?_getD, this]
    rfl
  · have h := initPoly_live.1 hc
    show ((boxWall.getD c [])[i]?).map Wall.box ≠ none
    interval_cases c <;> interval_cases i <;> simp [boxWall]
  · have h := initPoly_live.1 hc
    have g := initPoly_live.1 hd
    unfold Poly.cnt
    simp only [initPoly_nbr]
    interval_cases c <;> interval_cases d <;> simp [boxNbr]
  · have hsub : A ⊆ Finset.range 8 := fun c hc => Finset.mem_range.2 (initPoly_live.1 (hA c hc))
    have hs : ∑ c ∈ A, (initPoly x r).leave A c = ∑ c ∈ Finset.range 8, if c ∈ A then (initPoly x r).leave A c else 0 := by
      rw [← Finset.sum_filter]
      refine Finset.sum_congr ?_ fun _ _ => rfl
      ext c
      simp only [Finset.mem_filter, Finset.mem_range]
      exact ⟨fun h => ⟨Finset.mem_range.1 (hsub h), h⟩, fun h => h.2⟩
    have := box_bridge (decide (0 ∈ A)) (decide (1 ∈ A)) (decide (2 ∈ A)) (decide (3 ∈ A)) (decide (4 ∈ A)) (decide (5 ∈ A)) (decide (6 ∈ A)) (decide (7 ∈ A))
    rw [hs]
    simp only [Finset.sum_range_succ, Finset.sum_range_zero, Poly.leave, initPoly_nbr, boxNbr]
    simpa using this

/-! ## C76 -/

/-- The new corner lies between the two ends of its edge and not beyond the plane. -/
theorem cutParam_spec {xo n u w : Nat → ℝ} (hu : side xo n u > 1e-10) (hw : side xo n w ≤ 1e-10) :
    0 ≤ cutParam (side xo n u) (side xo n w) ∧ cutParam (side xo n u) (side xo n w) ≤ 1 ∧
      side xo n (fun e => u e + cutParam (side xo n u) (side xo n w) * (w e - u e)) ≤ 1e-10 := by
  have hlin : ∀ t : ℝ, side xo n (fun e => u e + t * (w e - u e)) = side xo n u + t * (side xo n w - side xo n u) := fun t => by unfold side; ring
  have hpos : 0 < side xo n u - side xo n w := by linarith
  rw [hlin]
  unfold cutParam
  split_ifs with h1 h2
  · have : 0 ≤ side xo n u / (side xo n u - side xo n w) := div_nonneg (by linarith) hpos.le
    linarith
  · exact ⟨by norm_num, le_refl _, by linarith⟩
  · have e : side xo n u + side xo n u / (side xo n u - side xo n w) * (side xo n w - side xo n u) = 0 := by
      field_simp
      ring
    rw [e]
    exact ⟨not_lt.1 h1, not_lt.1 h2, by norm_num⟩

/-- **C76**.  Trimming a well-formed polytope at a corner beyond the plane ends (the recursion is never deeper than there are corners), reads and writes only inside the arrays, and gives a well-formed
polytope again: every corner has three neighbours other than itself that are corners too, and neighbourhood is mutual.  The corner is gone, only corners beyond the plane are gone, with a corner that is gone
all its neighbours beyond the plane are gone, all others are where they were, and every new corner lies on the edge between a corner that is gone and one that is left, and not beyond the plane. -/
theorem C76_trim (P : Poly) (hP : P.WF) (t : Nat) (xo n : Nat → ℝ) (c : Nat) (v : Nat → ℝ) (hv : P.pos c = some v) (hs : side xo n v > 1e-10) :
    ∃ R, trimVertex t xo n (P.num + 1) c c P = some R ∧ R.WF ∧ R.pos c = none ∧ (∀ a, a < P.num → R.pos a = P.pos a ∨ (R.pos a = none ∧ ∃ u, P.pos a = some u ∧ side xo n u > 1e-10)) ∧
      (∀ a i b u w, i < 3 → P.pos a = some u → R.pos a = none → P.nbr a i = some b → P.pos b = some w → side xo n w > 1e-10 → R.pos b = none) ∧
      ∀ k p, P.num ≤ k → R.pos k = some p → side xo n p ≤ 1e-10 ∧ ∃ a b u w s, P.pos a = some u ∧ R.pos a = none ∧ P.pos b = some w ∧ R.pos b = some w ∧ side xo n u > 1e-10 ∧ side xo n w ≤ 1e-10 ∧
        0 ≤ s ∧ s ≤ 1 ∧ p = fun e => u e + s * (w e - u e) := by
  have hb : Beyond P xo n c := ⟨v, hv, hs⟩
  have hcard : unvisited P xo n ∅ ≤ P.num + 1 := by
    unfold unvisited
    refine (Finset.card_filter_le _ _).trans ?_
    rw [Finset.card_range]; omega
  obtain ⟨P1, S, e1, e2, -, e4, -⟩ := trimBody_spec hP (trimVertex_rec (xo := xo) (n := n) hP t P.num) t (TrimInv.start hP) (firstSlot P c c) hb (Finset.notMem_empty _) (by simp) hcard
  have hSS : (∅ : Finset Nat) ∪ (S \ ∅) = S := by simp
  rw [hSS] at e2
  have hR := linkRing_ringed e2.num
  have hpos : ∀ a, (linkRing P.num ((P1.delete c).num - P.num) P.num (P1.delete c)).pos a = (P1.delete c).pos a := fun a => by rw [hR.pos]
  refine ⟨linkRing P.num ((P1.delete c).num - P.num) P.num (P1.delete c), ?_, e2.wf hP hR, ?_, fun a ha => ?_, fun a i b u w hi ha hga hab hbw hsw => ?_, fun k p hk hp => ?_⟩
  · unfold trimVertex
    simp only [e1, if_pos]
    rfl
  · rw [hpos]; exact (e2.gone c e4).1
  · rw [hpos]
    by_cases haS : a ∈ S
    · exact Or.inr ⟨(e2.gone a haS).1, e2.beyond a haS⟩
    · exact Or.inl (e2.old a ha haS)
  · rw [hpos] at hga ⊢
    have haS : a ∈ S := by
      by_contra haS
      rw [e2.old a (hP.fin a (by simp [Poly.Live, ha])) haS, ha] at hga
      simp at hga
    rcases e2.done a haS i hi b hab with g | g
    · exact (e2.gone b g).1
    · exact absurd g (Beyond.not_within ⟨w, hbw, hsw⟩)
  · rw [hpos] at hp
    have hk2 : k < (P1.delete c).num := by
      by_contra hk2
      rw [(e2.high k (by omega)).1] at hp
      simp at hp
    obtain ⟨a, d, xc, xd, g1, g2, g3, g4, g5⟩ := e2.place k hk hk2
    obtain ⟨u, hu, hsu⟩ := e2.beyond a g1
    obtain ⟨w, hw, hsw⟩ := g2
    obtain rfl := Option.some.inj (g3.symm.trans hu)
    obtain rfl := Option.some.inj (g4.symm.trans hw)
    have hcp := cutParam_spec hsu (not_lt.1 hsw)
    obtain rfl := Option.some.inj (g5.symm.trans hp)
    have hdS : d ∉ S := fun g => (e2.beyond d g).not_within ⟨xd, hw, hsw⟩
    exact ⟨hcp.2.2, a, d, xc, xd, _, hu, by rw [hpos]; exact (e2.gone a g1).1, hw, by rw [hpos, e2.old d (hP.fin d (by simp [Poly.Live, hw])) hdS]; exact hw, hsu, not_lt.1 hsw, hcp.1, hcp.2.1, rfl⟩

/-- The side of the box where the first coordinate is positive is cut off. -/
example : (initPoly (fun _ => 0) 1).WF ∧ (∃ v, (initPoly (fun _ => 0) 1).pos 0 = some v ∧ side (fun d => if d = 0 then 0.5 else 0) (fun d => if d = 0 then 1 else 0) v > 1e-10) := by
  refine ⟨initPoly_wf _ _, _, rfl, ?_⟩
  simp only [side, boxSign]
  norm_num

end VoroCrust
