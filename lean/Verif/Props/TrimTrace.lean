import Verif.Props.Trim
import Mathlib.Data.ZMod.Basic
import Mathlib.Data.List.Nodup

/-!
# The order of the new corners

The recursion of `trim_vertex` walks round the part of the polytope that is cut off.  `RunInv` records the walk: the half-edges at which the walk passes from one wall to the next.
-/

namespace VoroCrust

open Classical

/-- Each edge lies on the same two walls at both ends, in opposite order. -/
def Poly.Coh (P : Poly) : Prop :=
  ∀ c i d, i < 3 → P.Live c → P.nbr c i = some d → ∃ j, j < 3 ∧ P.nbr d j = some c ∧ P.wall d j = P.wall c ((i + 2) % 3) ∧ P.wall d ((j + 2) % 3) = P.wall c i

/-- No two edges join the same corners. -/
def Poly.Simple (P : Poly) : Prop := ∀ c i i', i < 3 → i' < 3 → P.Live c → P.nbr c i = P.nbr c i' → i = i'

/-- A walk that passes over half-edges from wall to wall. -/
def Chain (P0 : Poly) : Option Wall → List (Nat × Nat) → Option Wall → Prop
  | a, [], b => a = b
  | a, e :: l, b => a = P0.wall e.1 ((e.2 + 2) % 3) ∧ Chain P0 (P0.wall e.1 e.2) l b

theorem Chain.append {P0 : Poly} {a b c : Option Wall} {l l' : List (Nat × Nat)} (h : Chain P0 a l b) (h' : Chain P0 b l' c) : Chain P0 a (l ++ l') c := by
  induction l generalizing a with
  | nil => simp only [Chain] at h; subst h; exact h'
  | cons e l ih => exact ⟨h.1, ih h.2⟩

theorem Chain.split {P0 : Poly} {a c : Option Wall} {l l' : List (Nat × Nat)} (h : Chain P0 a (l ++ l') c) : ∃ b, Chain P0 a l b ∧ Chain P0 b l' c := by
  induction l generalizing a with
  | nil => exact ⟨a, rfl, h⟩
  | cons e l ih =>
    obtain ⟨b, h1, h2⟩ := ih h.2
    exact ⟨b, ⟨h.1, h1⟩, h2⟩

theorem Chain.one (P0 : Poly) (c i : Nat) : Chain P0 (P0.wall c ((i + 2) % 3)) [(c, i)] (P0.wall c i) := ⟨rfl, rfl⟩

/-- A value for every edge. -/
def EdgeFun (P0 : Poly) (f : Nat → Nat → ZMod 2) : Prop := ∀ c i d j, i < 3 → j < 3 → P0.Live c → P0.nbr c i = some d → P0.nbr d j = some c → f c i = f d j

/-- Edges of `T` that make a path from `a` to `b`. -/
def Join (P0 : Poly) (T : Set (Nat × Nat)) (a b : Nat) : Prop :=
  ∃ f : Nat → Nat → ZMod 2, EdgeFun P0 f ∧ (∀ c i, f c i ≠ 0 → (c, i) ∈ T) ∧ ∀ v, f v 0 + f v 1 + f v 2 = (if v = a then 1 else 0) + (if v = b then 1 else 0)

theorem Join.refl (P0 : Poly) (T : Set (Nat × Nat)) (a : Nat) : Join P0 T a a :=
  ⟨fun _ _ => 0, fun _ _ _ _ _ _ _ _ _ => rfl, fun _ _ h => absurd rfl h, fun v => by
    show (0 : ZMod 2) + 0 + 0 = _
    split_ifs
    · decide
    · decide⟩

theorem Join.mono {P0 : Poly} {T T' : Set (Nat × Nat)} {a b : Nat} (h : Join P0 T a b) (hT : T ⊆ T') : Join P0 T' a b := by
  obtain ⟨f, h1, h2, h3⟩ := h
  exact ⟨f, h1, fun c i g => hT (h2 c i g), h3⟩

theorem Join.trans {P0 : Poly} {T : Set (Nat × Nat)} {a b c : Nat} (h : Join P0 T a b) (h' : Join P0 T b c) : Join P0 T a c := by
  obtain ⟨f, h1, h2, h3⟩ := h
  obtain ⟨g, g1, g2, g3⟩ := h'
  refine ⟨fun v i => f v i + g v i, fun c i d j hi hj hl e1 e2 => by simp only [h1 c i d j hi hj hl e1 e2, g1 c i d j hi hj hl e1 e2], fun c i hne => ?_, fun v => ?_⟩
  · by_cases hf : f c i = 0
    · exact g2 c i fun hg => hne (by simp [hf, hg])
    · exact h2 c i hf
  · have e : f v 0 + g v 0 + (f v 1 + g v 1) + (f v 2 + g v 2) = (f v 0 + f v 1 + f v 2) + (g v 0 + g v 1 + g v 2) := by ring
    have two : ∀ x y z : ZMod 2, x + y + (y + z) = x + z := by decide
    rw [e, h3, g3, two]

theorem Join.symm {P0 : Poly} {T : Set (Nat × Nat)} {a b : Nat} (h : Join P0 T a b) : Join P0 T b a := by
  obtain ⟨f, h1, h2, h3⟩ := h
  exact ⟨f, h1, h2, fun v => by rw [h3, add_comm]⟩

/-- The two halves of one edge. -/
noncomputable def edgeInd (c i d j : Nat) : Nat → Nat → ZMod 2 := fun v k => if (v = c ∧ k = i) ∨ (v = d ∧ k = j) then 1 else 0

theorem edgeInd_fun {P0 : Poly} (hs : P0.Simple) {c i d j : Nat} (hi : i < 3) (hj : j < 3) (hc : P0.Live c) (hd : P0.Live d) (e1 : P0.nbr c i = some d) (e2 : P0.nbr d j = some c) : EdgeFun P0 (edgeInd c i d j) := by
  intro a k b l hk hl _ f1 f2
  unfold edgeInd
  have key : (a = c ∧ k = i) ∨ (a = d ∧ k = j) ↔ (b = c ∧ l = i) ∨ (b = d ∧ l = j) := by
    constructor
    · rintro (⟨rfl, rfl⟩ | ⟨rfl, rfl⟩)
      · obtain rfl := Option.some.inj (e1.symm.trans f1)
        exact Or.inr ⟨rfl, hs _ _ _ hl hj hd (f2.trans e2.symm)⟩
      · obtain rfl := Option.some.inj (e2.symm.trans f1)
        exact Or.inl ⟨rfl, hs _ _ _ hl hi hc (f2.trans e1.symm)⟩
    · rintro (⟨rfl, rfl⟩ | ⟨rfl, rfl⟩)
      · obtain rfl := Option.some.inj (e1.symm.trans f2)
        exact Or.inr ⟨rfl, hs _ _ _ hk hj hd (f1.trans e2.symm)⟩
      · obtain rfl := Option.some.inj (e2.symm.trans f2)
        exact Or.inl ⟨rfl, hs _ _ _ hk hi hc (f1.trans e1.symm)⟩
  simp only [key]

theorem edgeInd_sum {c i d j : Nat} (hi : i < 3) (hj : j < 3) (hcd : c ≠ d) (v : Nat) : edgeInd c i d j v 0 + edgeInd c i d j v 1 + edgeInd c i d j v 2 = (if v = c then 1 else 0) + (if v = d then 1 else 0) := by
  unfold edgeInd
  by_cases h1 : v = c
  · subst h1
    simp only [hcd, true_and, false_and, or_false, if_true, if_false]
    interval_cases i <;> simp
  · by_cases h2 : v = d
    · subst h2
      simp only [h1, true_and, false_and, false_or, if_true, if_false]
      interval_cases j <;> simp
    · simp [h1, h2]

theorem Join.edge {P0 : Poly} {T : Set (Nat × Nat)} (hs : P0.Simple) {c i d j : Nat} (hi : i < 3) (hj : j < 3) (hc : P0.Live c) (hd : P0.Live d) (hcd : c ≠ d) (e1 : P0.nbr c i = some d) (e2 : P0.nbr d j = some c)
    (h1 : (c, i) ∈ T) (h2 : (d, j) ∈ T) : Join P0 T c d := by
  refine ⟨edgeInd c i d j, edgeInd_fun hs hi hj hc hd e1 e2, fun a k h => ?_, edgeInd_sum hi hj hcd⟩
  unfold edgeInd at h
  split_ifs at h with g
  · rcases g with ⟨rfl, rfl⟩ | ⟨rfl, rfl⟩
    · exact h1
    · exact h2
  · exact absurd rfl h

section

variable (P0 : Poly) (xo n : Nat → ℝ) (t : Nat)

/-- A half-edge on which a new corner is made. -/
def IsCut (e : Nat × Nat) : Prop := ∃ d, P0.nbr e.1 e.2 = some d ∧ Within P0 xo n d

/-- The half-edges with new corners. -/
noncomputable def cutsOf (L : List (Nat × Nat)) : List (Nat × Nat) := L.filter fun e => decide (IsCut P0 xo n e)

/-- The corner `k` was made on the half-edge `e`. -/
structure NewAt (P : Poly) (k : Nat) (e : Nat × Nat) (d : Nat) (xc xd : Nat → ℝ) (j : Nat) : Prop where
  nbr0 : P0.nbr e.1 e.2 = some d
  within : Within P0 xo n d
  posc : P0.pos e.1 = some xc
  posd : P0.pos d = some xd
  lt : j < 3
  back : P0.nbr d j = some e.1
  backk : P.nbr d j = some k
  nbr : ∀ j', P.nbr k j' = if j' = e.2 then some d else none
  wall : ∀ j', P.wall k j' = if j' = e.2 then P0.wall e.1 e.2 else if j' = (e.2 + 2) % 3 then P0.wall e.1 ((e.2 + 2) % 3) else some (Wall.pt t)
  pos : P.pos k = some fun x => xc x + cutParam (side xo n xc) (side xo n xd) * (xd x - xc x)

/-- The walk: `T` are the half-edges of the tree of the recursion, `L` the others in the order in which they were met, `r` is the first corner. -/
structure TraceInv (r : Nat) (P : Poly) (S D : Finset Nat) (T : Set (Nat × Nat)) (L : List (Nat × Nat)) : Prop where
  num : P.num = P0.num + (cutsOf P0 xo n L).length
  new : ∀ m e, (cutsOf P0 xo n L)[m]? = some e → ∃ d xc xd j, NewAt P0 xo n t P (P0.num + m) e d xc xd j
  walls : ∀ a, a < P0.num → a ∉ D → P.wall a = P0.wall a
  nodup : L.Nodup
  mem : ∀ e ∈ L, e.1 ∈ S ∧ e.2 < 3 ∧ e ∉ T
  full : ∀ c ∈ D, ∀ i, i < 3 → (c, i) ∈ L ∨ (c, i) ∈ T
  tree : ∀ e ∈ T, e.1 ∈ S ∧ e.2 < 3 ∧ ∃ d j, P0.nbr e.1 e.2 = some d ∧ d ∈ S ∧ j < 3 ∧ P0.nbr d j = some e.1 ∧ (d, j) ∈ T
  join : ∀ s ∈ S, Join P0 T s r

variable {P0 xo n t}

theorem cutsOf_append (L L' : List (Nat × Nat)) : cutsOf P0 xo n (L ++ L') = cutsOf P0 xo n L ++ cutsOf P0 xo n L' := List.filter_append ..

theorem NewAt.congr {P Q : Poly} {k : Nat} {e : Nat × Nat} {d : Nat} {xc xd : Nat → ℝ} {j : Nat} (h : NewAt P0 xo n t P k e d xc xd j) (h1 : Q.nbr d j = P.nbr d j) (h2 : Q.nbr k = P.nbr k) (h3 : Q.wall k = P.wall k) (h4 : Q.pos k = P.pos k) :
    NewAt P0 xo n t Q k e d xc xd j :=
  ⟨h.nbr0, h.within, h.posc, h.posd, h.lt, h.back, by rw [h1]; exact h.backk, by rw [h2]; exact h.nbr, by rw [h3]; exact h.wall, by rw [h4]; exact h.pos⟩

theorem TraceInv.lt {r : Nat} {P : Poly} {S D : Finset Nat} {T : Set (Nat × Nat)} {L : List (Nat × Nat)} (h : TraceInv P0 xo n t r P S D T L) {m : Nat} {e : Nat × Nat} (hm : (cutsOf P0 xo n L)[m]? = some e) :
    P0.num + m < P.num := by
  have := (List.getElem?_eq_some_iff.1 hm).1
  have := h.num
  omega

theorem TraceInv.congr {r : Nat} {P Q : Poly} {S D D' : Finset Nat} {T : Set (Nat × Nat)} {L : List (Nat × Nat)} (h : TraceInv P0 xo n t r P S D T L) (hn : Q.num = P.num)
    (h1 : ∀ d, Within P0 xo n d → Q.nbr d = P.nbr d) (h2 : ∀ k, P0.num ≤ k → k < P.num → Q.nbr k = P.nbr k ∧ Q.wall k = P.wall k ∧ Q.pos k = P.pos k) (h3 : ∀ a, a < P0.num → a ∉ D' → Q.wall a = P0.wall a)
    (h4 : ∀ c ∈ D', ∀ i, i < 3 → (c, i) ∈ L ∨ (c, i) ∈ T) : TraceInv P0 xo n t r Q S D' T L := by
  refine ⟨by rw [hn, h.num], fun m e hm => ?_, h3, h.nodup, h.mem, h4, h.tree, h.join⟩
  obtain ⟨d, xc, xd, j, g⟩ := h.new m e hm
  have hk := h2 _ (by omega) (h.lt hm)
  exact ⟨d, xc, xd, j, g.congr (by rw [h1 d g.within]) hk.1 hk.2.1 hk.2.2⟩

/-- Breaking an edge. -/
theorem TraceInv.break {r : Nat} {P : Poly} {S D : Finset Nat} {T : Set (Nat × Nat)} {L : List (Nat × Nat)} (h0 : P0.WF) (h : TraceInv P0 xo n t r P S D T L) {c i : Nat} (hb : Beyond P0 xo n c) :
    TraceInv P0 xo n t r (P.setNbr c i none) S D T L := by
  refine h.congr rfl (fun d hd => ?_) (fun k h1 h2 => ⟨?_, rfl, rfl⟩) h.walls h.full
  · ext1 j; exact setNbr_other (Within.ne hb hd) j
  · ext1 j; exact setNbr_other (by have := h0.fin c hb.live; omega) j

/-- Deleting a corner. -/
theorem TraceInv.delete {r : Nat} {P : Poly} {S D : Finset Nat} {T : Set (Nat × Nat)} {L : List (Nat × Nat)} (h0 : P0.WF) (h : TraceInv P0 xo n t r P S D T L) {c : Nat} (hb : Beyond P0 xo n c)
    (hc : ∀ i, i < 3 → (c, i) ∈ L ∨ (c, i) ∈ T) : TraceInv P0 xo n t r (P.delete c) S (insert c D) T L := by
  have hne : ∀ a, a ≠ c → (P.delete c).nbr a = P.nbr a ∧ (P.delete c).wall a = P.wall a ∧ (P.delete c).pos a = P.pos a := fun a ha => by simp [Poly.delete, upd, ha]
  have hlt := h0.fin c hb.live
  refine h.congr rfl (fun d hd => (hne d (Within.ne hb hd)).1) (fun k h1 h2 => hne k (by omega)) (fun a ha hD => ?_) fun a ha i hi => ?_
  · rw [Finset.mem_insert, not_or] at hD
    rw [(hne a hD.1).2.1]; exact h.walls a ha hD.2
  · rcases Finset.mem_insert.1 ha with rfl | ha
    · exact hc i hi
    · exact h.full a ha i hi

/-- A corner is visited, coming from `c`. -/
theorem TraceInv.mark (hs : P0.Simple) {r : Nat} {P : Poly} {S D : Finset Nat} {T : Set (Nat × Nat)} {L : List (Nat × Nat)} (h : TraceInv P0 xo n t r P S D T L) {c i d j : Nat} (hi : i < 3) (hj : j < 3) (hc : c ∈ S)
    (hcb : Beyond P0 xo n c) (hdb : Beyond P0 xo n d) (hd : d ∉ S) (e1 : P0.nbr c i = some d) (e2 : P0.nbr d j = some c) (hL : (c, i) ∉ L) :
    TraceInv P0 xo n t r P (insert d S) D (T ∪ {(c, i), (d, j)}) L := by
  have hcd : c ≠ d := by rintro rfl; exact hd hc
  refine ⟨h.num, h.new, h.walls, h.nodup, fun e he => ?_, fun a ha k hk => (h.full a ha k hk).imp_right Or.inl, fun e he => ?_, fun s hS => ?_⟩
  · obtain ⟨g1, g2, g3⟩ := h.mem e he
    refine ⟨Finset.mem_insert_of_mem g1, g2, ?_⟩
    rintro (g | g | g)
    · exact g3 g
    · exact hL (g ▸ he)
    · have : e.1 = d := by rw [show e = (d, j) from g]
      exact hd (this ▸ g1)
  · rcases he with he | rfl | rfl
    · obtain ⟨g1, g2, a, k, g3, g4, g5, g6, g7⟩ := h.tree e he
      exact ⟨Finset.mem_insert_of_mem g1, g2, a, k, g3, Finset.mem_insert_of_mem g4, g5, g6, Or.inl g7⟩
    · exact ⟨Finset.mem_insert_of_mem hc, hi, d, j, e1, Finset.mem_insert_self _ _, hj, e2, Or.inr (Or.inr rfl)⟩
    · exact ⟨Finset.mem_insert_self _ _, hj, c, i, e2, Finset.mem_insert_of_mem hc, hi, e1, Or.inr (Or.inl rfl)⟩
  · rcases Finset.mem_insert.1 hS with rfl | hS
    · exact (Join.edge hs hi hj hcb.live hdb.live hcd e1 e2 (Or.inr (Or.inl rfl)) (Or.inr (Or.inr rfl))).symm.trans ((h.join c hc).mono fun _ g => Or.inl g)
    · exact (h.join s hS).mono fun _ g => Or.inl g

theorem TraceInv.start (P0 : Poly) (xo n : Nat → ℝ) (t r : Nat) : TraceInv P0 xo n t r P0 {r} ∅ ∅ [] := by
  refine ⟨rfl, by simp [cutsOf], fun _ _ _ => rfl, List.nodup_nil, by simp, by simp, by simp, fun s hs => ?_⟩
  rw [Finset.mem_singleton.1 hs]
  exact Join.refl _ _ _

/-- An edge between two corners that were both visited. -/
theorem TraceInv.skip {r : Nat} {P : Poly} {S D : Finset Nat} {T : Set (Nat × Nat)} {L : List (Nat × Nat)} (h : TraceInv P0 xo n t r P S D T L) {c i d : Nat} (hi : i < 3) (hc : c ∈ S) (hL : (c, i) ∉ L) (hT : (c, i) ∉ T)
    (e : P0.nbr c i = some d) (hd : Beyond P0 xo n d) : TraceInv P0 xo n t r P S D T (L ++ [(c, i)]) := by
  have hc0 : cutsOf P0 xo n (L ++ [(c, i)]) = cutsOf P0 xo n L := by
    rw [cutsOf_append]
    have : cutsOf P0 xo n [(c, i)] = [] := by
      unfold cutsOf
      rw [List.filter_cons_of_neg, List.filter_nil]
      simp only [decide_eq_true_eq]
      rintro ⟨d', g1, g2⟩
      obtain rfl := Option.some.inj (e.symm.trans g1)
      exact hd.not_within g2
    rw [this, List.append_nil]
  refine ⟨by rw [hc0]; exact h.num, by rw [hc0]; exact h.new, h.walls, ?_, fun a ha => ?_, fun a ha k hk => ?_, h.tree, h.join⟩
  · rw [List.nodup_append]
    refine ⟨h.nodup, List.nodup_singleton _, fun a ha b hb => ?_⟩
    rw [List.mem_singleton.1 hb]
    rintro rfl
    exact hL ha
  · rcases List.mem_append.1 ha with ha | ha
    · exact h.mem a ha
    · rw [List.mem_singleton.1 ha]; exact ⟨hc, hi, hT⟩
  · rcases h.full a ha k hk with g | g
    · exact Or.inl (List.mem_append_left _ g)
    · exact Or.inr g

theorem cutEdge_wall {P P' : Poly} {c i d : Nat} {xc xd : Nat → ℝ} (h : cutEdge t xo n c i d xc xd P = some P') :
    P'.wall = upd P.wall P.num fun j => if j = i then P.wall c i else if j = (i + 2) % 3 then P.wall c ((i + 2) % 3) else some (Wall.pt t) := by
  unfold cutEdge at h
  split at h
  · rename_i wi wm h1 h2
    by_cases h3 : P.num < P.cap
    swap
    · rw [if_neg h3] at h; simp at h
    rw [if_pos h3] at h
    obtain rfl := Option.some.inj h
    unfold Poly.redirect
    split <;> simp only [Poly.setNbr, h1, h2]
  · simp at h

/-- A new corner. -/
theorem TraceInv.cut (h0 : P0.WF) {r : Nat} {P : Poly} {S D : Finset Nat} {T : Set (Nat × Nat)} {L : List (Nat × Nat)} (h : TrimInv P0 xo n P S D) (ht : TraceInv P0 xo n t r P S D T L) {c d i : Nat} (hc : c ∈ S)
    (hcD : c ∉ D) (hi : i < 3) (hn : P.nbr c i = some d) (hd : Within P0 xo n d) {xc xd : Nat → ℝ} (hxc : P0.pos c = some xc) (hxd : P0.pos d = some xd) (hL : (c, i) ∉ L) (hT : (c, i) ∉ T) (e0 : P0.nbr c i = some d)
    {P' : Poly} (hP' : cutEdge t xo n c i d xc xd (P.setNbr c i none) = some P') : TraceInv P0 xo n t r P' S D T (L ++ [(c, i)]) := by
  have hb := h.beyond c hc
  have hclt := h0.fin c hb.live
  have hdlt := h0.fin d hd.live
  have hnum := h.num
  have hdc := Within.ne hb hd
  have hpos : 0 < P.cnt d c := by rw [← h.half c hc d hd]; exact cnt_pos hi hn
  obtain ⟨P'', j, eP, hj, hdj, k1, k2, k3, k4, k5, hN⟩ := cutEdge_form (xo := xo) (n := n) (t := t) (xc := xc) (xd := xd) hi h.cap (fun j hj => h.wall c j hj (by rw [h.old c hclt hcD, hxc]; simp)) hdc (by omega) hpos
  obtain rfl := Option.some.inj (eP.symm.trans hP')
  have hwall := cutEdge_wall hP'
  have hc1 : cutsOf P0 xo n (L ++ [(c, i)]) = cutsOf P0 xo n L ++ [(c, i)] := by
    rw [cutsOf_append]
    have : cutsOf P0 xo n [(c, i)] = [(c, i)] := by
      unfold cutsOf
      rw [List.filter_cons_of_pos, List.filter_nil]
      simp only [decide_eq_true_eq]
      exact ⟨d, e0, hd⟩
    rw [this]
  have hd0 : P0.nbr d j = some c := by
    rcases h.inner d hd j hj with g | ⟨k, s, g, g2, -⟩
    · rw [← g]; exact hdj
    · rw [g] at hdj
      have := Option.some.inj hdj
      omega
  refine ⟨by rw [hc1, k1, List.length_append, ht.num]; rfl, fun m e hm => ?_, fun a ha hD => by rw [k4 a (by omega)]; exact ht.walls a ha hD, ?_, fun a ha => ?_, fun a ha k hk => ?_, ht.tree, ht.join⟩
  · rw [hc1] at hm
    rcases Nat.lt_trichotomy m (cutsOf P0 xo n L).length with g | g | g
    · rw [List.getElem?_append_left g] at hm
      obtain ⟨d', xc', xd', j', q⟩ := ht.new m e hm
      have hlt := ht.lt hm
      refine ⟨d', xc', xd', j', q.congr ?_ ?_ ?_ ?_⟩
      · have := h0.fin d' q.within.live
        rw [hN, if_neg, if_neg (by omega), if_neg fun g => Within.ne hb q.within g.1]
        rintro ⟨rfl, rfl⟩
        have := q.backk.symm.trans hdj
        have := Option.some.inj this
        omega
      · ext1 j'
        rw [hN, if_neg (fun g => by omega), if_neg (by omega), if_neg (fun g => by omega)]
      · exact k4 _ (by omega)
      · rw [k3]; simp only [upd]; rw [if_neg (by omega)]
    · subst g
      rw [List.getElem?_append_right (le_refl _)] at hm
      simp only [Nat.sub_self, List.getElem?_cons_zero, Option.some.injEq] at hm
      subst hm
      rw [← ht.num]
      refine ⟨d, xc, xd, j, ⟨e0, hd, hxc, hxd, hj, hd0, by rw [hN, if_pos ⟨rfl, rfl⟩], fun j' => by rw [hN, if_neg (fun g => by omega), if_pos rfl], fun j' => ?_, by rw [k3]; simp [upd]⟩⟩
      rw [hwall]
      have : (P.setNbr c i none).num = P.num := rfl
      have e1 : (P.setNbr c i none).wall = P.wall := rfl
      simp only [upd, this, e1, if_true, ht.walls c hclt hcD]
    · rw [List.getElem?_eq_none (by simp; omega)] at hm
      simp at hm
  · rw [List.nodup_append]
    refine ⟨ht.nodup, List.nodup_singleton _, fun a ha b hb => ?_⟩
    rw [List.mem_singleton.1 hb]
    rintro rfl
    exact hL ha
  · rcases List.mem_append.1 ha with ha | ha
    · exact ht.mem a ha
    · rw [List.mem_singleton.1 ha]; exact ⟨hc, hi, hT⟩
  · rcases ht.full a ha k hk with g | g
    · exact Or.inl (List.mem_append_left _ g)
    · exact Or.inr g

variable (P0 xo n t) in
/-- What the recursive calls do. -/
def RecTrace (r : Nat) (rec : Nat → Nat → Poly → Option Poly) (bound : Nat) : Prop :=
  ∀ (P : Poly) (S D : Finset Nat) (T : Set (Nat × Nat)) (L : List (Nat × Nat)) (d c i j : Nat), TrimInv P0 xo n P S D → TraceInv P0 xo n t r P S D T L → Beyond P0 xo n d → d ∉ S → c ∈ S → i < 3 → j < 3 →
    P0.nbr c i = some d → P0.nbr d j = some c → (c, i) ∉ L → (∀ s ∈ S, s ∉ D → ∃ i, i < 3 ∧ P.nbr s i = none) → unvisited P0 xo n S ≤ bound →
    ∃ P' S' T' L', rec d c P = some P' ∧ TrimInv P0 xo n P' S' (D ∪ (S' \ S)) ∧ TraceInv P0 xo n t r P' S' (D ∪ (S' \ S)) T' (L ++ L') ∧ S ⊆ S' ∧ d ∈ S' ∧ (∀ s ∈ S, s ∉ D → ∀ j, P'.nbr s j = P.nbr s j) ∧ T ⊆ T' ∧
      (c, i) ∈ T' ∧ (∀ e ∈ L', e.1 ∉ S) ∧ (∀ e ∈ T', e ∈ T ∨ e.1 ∉ S ∨ e = (c, i)) ∧ Chain P0 (P0.wall d j) L' (P0.wall d ((j + 2) % 3))

theorem trimSlot_trace (h0 : P0.WF) (hcoh : P0.Coh) {r : Nat} {rec : Nat → Nat → Poly → Option Poly} {bound : Nat} (hrec : RecTrace P0 xo n t r rec bound) {P : Poly} {S D : Finset Nat} {T : Set (Nat × Nat)}
    {L : List (Nat × Nat)} (h : TrimInv P0 xo n P S D) (ht : TraceInv P0 xo n t r P S D T L) {c i : Nat} (hi : i < 3) (hc : c ∈ S) (hcD : c ∉ D) (hci : P.nbr c i = P0.nbr c i) (hL : (c, i) ∉ L)
    (hflag : ∀ s ∈ S, s ∉ D → s ≠ c → ∃ i, i < 3 ∧ P.nbr s i = none) (hb : unvisited P0 xo n S ≤ bound) :
    ∃ P' S' T' L', trimSlot rec t xo n c i P = some P' ∧ TrimInv P0 xo n P' S' (D ∪ (S' \ S)) ∧ TraceInv P0 xo n t r P' S' (D ∪ (S' \ S)) T' (L ++ L') ∧ S ⊆ S' ∧
      (∀ s ∈ S, s ∉ D → s ≠ c → ∀ j, P'.nbr s j = P.nbr s j) ∧ (∀ j, j ≠ i → P'.nbr c j = P.nbr c j) ∧ (∀ e, P'.nbr c i = some e → e ∈ S') ∧ (∀ e, P.nbr c i = some e → e ∈ S' ∨ Within P0 xo n e) ∧ T ⊆ T' ∧
      ((c, i) ∈ L ++ L' ∨ (c, i) ∈ T') ∧ (∀ e ∈ L', e.1 ∉ S ∨ e = (c, i)) ∧ (∀ e ∈ T', e ∈ T ∨ e.1 ∉ S ∨ e = (c, i)) ∧ ((c, i) ∈ T → L' = []) ∧
      ((c, i) ∉ T → Chain P0 (P0.wall c ((i + 2) % 3)) L' (P0.wall c i)) := by
  have hSD : D ∪ (S \ S) = D := by simp
  obtain ⟨d, hd0, g2, g3⟩ := h0.out c i hi (h.beyond c hc).live
  have hn : P.nbr c i = some d := hci.trans hd0
  have g4 := h0.fin d g2
  have hnum := h.num
  unfold trimSlot
  simp only [hn]
  rw [if_neg (by omega)]
  by_cases hvis : P.nbr d 0 = none ∨ P.nbr d 1 = none ∨ P.nbr d 2 = none
  · rw [if_pos hvis]
    have hdS : d ∈ S := by
      by_contra hdS
      have f := fun j (hj : j < 3) => h.full h0 g2 hdS hj
      rcases hvis with g | g | g
      · exact f 0 (by omega) g
      · exact f 1 (by omega) g
      · exact f 2 (by omega) g
    by_cases hT : (c, i) ∈ T
    · refine ⟨P, S, T, [], rfl, by rw [hSD]; exact h, by rw [hSD, List.append_nil]; exact ht, subset_refl _, fun _ _ _ _ _ => rfl, fun _ _ => rfl, fun e he => ?_, fun e he => ?_, subset_refl _, Or.inr hT, by simp,
        fun e he => Or.inl he, fun _ => rfl, fun g => absurd hT g⟩
      · rw [hn] at he; exact Option.some.inj he ▸ hdS
      · exact Or.inl (Option.some.inj he ▸ hdS)
    · refine ⟨P, S, T, [(c, i)], rfl, by rw [hSD]; exact h, by rw [hSD]; exact ht.skip hi hc hL hT hd0 (h.beyond d hdS), subset_refl _, fun _ _ _ _ _ => rfl, fun _ _ => rfl, fun e he => ?_, fun e he => ?_, subset_refl _,
        Or.inl (by simp), fun e he => Or.inr (List.mem_singleton.1 he), fun e he => Or.inl he, fun g => absurd g hT, fun _ => Chain.one P0 c i⟩
      · rw [hn] at he; exact Option.some.inj he ▸ hdS
      · exact Or.inl (Option.some.inj he ▸ hdS)
  · rw [if_neg hvis]
    have hdS : d ∉ S := by
      intro hdS
      apply hvis
      by_cases hdD : d ∈ D
      · exact Or.inl ((h.gone d hdD).2 0)
      · obtain ⟨j, hj, hjn⟩ := hflag d hdS hdD g3
        interval_cases j
        · exact Or.inl hjn
        · exact Or.inr (Or.inl hjn)
        · exact Or.inr (Or.inr hjn)
    have hT : (c, i) ∉ T := by
      intro hT
      obtain ⟨-, -, d', j, q1, q2, -⟩ := ht.tree _ hT
      obtain rfl := Option.some.inj (hd0.symm.trans q1)
      exact hdS q2
    have hclt := h0.fin c (h.beyond c hc).live
    obtain ⟨xc, hxc⟩ := Option.ne_none_iff_exists'.1 (h.beyond c hc).live
    obtain ⟨xd, hxd⟩ := Option.ne_none_iff_exists'.1 g2
    rw [h.old c hclt hcD, hxc, h.old d g4 (fun g => hdS (h.sub g)), hxd]
    simp only
    by_cases hside : side xo n xd > 1e-10
    · rw [if_pos hside]
      have hdb : Beyond P0 xo n d := ⟨xd, hxd, hside⟩
      obtain ⟨j, hj, hjn, w1, w2⟩ := hcoh c i d hi (h.beyond c hc).live hd0
      obtain ⟨P', S', T', L', e1, e2, et, e3, e4, e5, e6, e7, e8, e9, e10⟩ := hrec _ S D T L d c i j (h.break h0 hc hcD hi hn hdb) (ht.break h0 (h.beyond c hc)) hdb hdS hc hi hj hd0 hjn hL (fun s hs hsD => by
        by_cases hsc : s = c
        · subst hsc; exact ⟨i, hi, setNbr_self _ _ _ _⟩
        · obtain ⟨j, hj, hjn⟩ := hflag s hs hsD hsc
          exact ⟨j, hj, by rw [setNbr_other hsc]; exact hjn⟩) hb
      refine ⟨P', S', T', L', e1, e2, et, e3, fun s hs hsD hsc j => by rw [e5 s hs hsD, setNbr_other hsc], fun j hj => by rw [e5 c hc hcD, setNbr_slot hj], fun e he => ?_, fun e he => ?_, e6, Or.inr e7,
        fun e he => Or.inl (e8 e he), e9, fun g => absurd g hT, fun _ => by rw [← w1, ← w2]; exact e10⟩
      · rw [e5 c hc hcD, setNbr_self] at he; simp at he
      · exact Or.inl (Option.some.inj he ▸ e4)
    · rw [if_neg hside]
      have hdw : Within P0 xo n d := ⟨xd, hxd, hside⟩
      obtain ⟨P', e1, e2, e3, e4, e5⟩ := h.cut h0 (t := t) hc hcD hi hn hdw hxc hxd
      refine ⟨P', S, T, [(c, i)], e1, by rw [hSD]; exact e2, by rw [hSD]; exact TraceInv.cut h0 h ht hc hcD hi hn hdw hxc hxd hL hT hd0 e1, subset_refl _, fun s hs _ hsc j => e5 s hs hsc j, e4,
        fun e he => by rw [e3] at he; simp at he, fun e he => Or.inr (Option.some.inj he ▸ hdw), subset_refl _, Or.inl (by simp), fun e he => Or.inr (List.mem_singleton.1 he), fun e he => Or.inl he,
        fun g => absurd g hT, fun _ => Chain.one P0 c i⟩

theorem trimSlots_trace (h0 : P0.WF) (hcoh : P0.Coh) {r : Nat} {rec : Nat → Nat → Poly → Option Poly} {bound : Nat} (hrec : RecTrace P0 xo n t r rec bound) {P : Poly} {S D : Finset Nat} {T : Set (Nat × Nat)}
    {L : List (Nat × Nat)} (h : TrimInv P0 xo n P S D) (ht : TraceInv P0 xo n t r P S D T L) {c : Nat} (io : Nat) (hc : c ∈ S) (hcD : c ∉ D) (hci : ∀ i, P.nbr c i = P0.nbr c i) (hL : ∀ i, (c, i) ∉ L)
    (hflag : ∀ s ∈ S, s ∉ D → s ≠ c → ∃ i, i < 3 ∧ P.nbr s i = none) (hb : unvisited P0 xo n S ≤ bound) :
    ∃ P' S' T' L1 L2 L3, trimSlots rec t xo n c io P = some P' ∧ TrimInv P0 xo n P' S' (D ∪ (S' \ S)) ∧ TraceInv P0 xo n t r P' S' (D ∪ (S' \ S)) T' (L ++ (L1 ++ L2 ++ L3)) ∧ S ⊆ S' ∧
      (∀ s ∈ S, s ∉ D → s ≠ c → ∀ j, P'.nbr s j = P.nbr s j) ∧ (∀ i, i < 3 → ∀ e, P'.nbr c i = some e → e ∈ S') ∧ (∀ i, i < 3 → ∀ e, P.nbr c i = some e → e ∈ S' ∨ Within P0 xo n e) ∧ T ⊆ T' ∧
      (∀ i, i < 3 → (c, i) ∈ L ++ (L1 ++ L2 ++ L3) ∨ (c, i) ∈ T') ∧ (∀ e ∈ L1 ++ L2 ++ L3, e.1 ∉ S ∨ e.1 = c) ∧ (∀ e ∈ T', e ∈ T ∨ e.1 ∉ S ∨ e.1 = c) ∧
      ∀ k l, (k = 0 ∧ l = L1) ∨ (k = 1 ∧ l = L2) ∨ (k = 2 ∧ l = L3) → ((c, (io + k) % 3) ∈ T → l = []) ∧ ((c, (io + k) % 3) ∉ T → Chain P0 (P0.wall c (((io + k) % 3 + 2) % 3)) l (P0.wall c ((io + k) % 3))) := by
  have next : ∀ {P1 : Poly} {S1 : Finset Nat}, S ⊆ S1 → (∀ s ∈ S, s ∉ D → s ≠ c → ∀ j, P1.nbr s j = P.nbr s j) →
      c ∉ D ∪ (S1 \ S) ∧ ∀ s ∈ S1, s ∉ D ∪ (S1 \ S) → s ≠ c → ∃ i, i < 3 ∧ P1.nbr s i = none := by
    intro P1 S1 hsub hsame
    refine ⟨by simp [hcD, hc], fun s hs hsD hsc => ?_⟩
    simp only [Finset.mem_union, Finset.mem_sdiff, not_or, not_and, not_not] at hsD
    obtain ⟨i, hi, hn⟩ := hflag s (hsD.2 hs) hsD.1 hsc
    exact ⟨i, hi, by rw [hsame s (hsD.2 hs) hsD.1 hsc]; exact hn⟩
  have far : ∀ {k : Nat} {e : Nat × Nat} {S1 : Finset Nat} {i : Nat}, S ⊆ S1 → k ≠ i → e.1 ∉ S1 ∨ e = (c, i) → e ≠ (c, k) := by
    rintro k e S1 i hsub hk (g | g) he
    · exact g (by rw [he]; exact hsub hc)
    · exact hk (Prod.mk.inj (he.symm.trans g)).2
  obtain ⟨P1, S1, T1, L1, a1, a2, at1, a3, a4, a5, a6, a7, a8, a9, a10, a11, a12, a13⟩ := trimSlot_trace h0 hcoh hrec h ht (i := io % 3) (by omega) hc hcD (hci _) (hL _) hflag hb
  obtain ⟨n1, n2⟩ := next a3 a4
  have hL1 : (c, (io + 1) % 3) ∉ L ++ L1 := by
    intro g
    rcases List.mem_append.1 g with g | g
    · exact hL _ g
    · exact far (subset_refl S) (by omega) (a10 _ g) rfl
  obtain ⟨P2, S2, T2, L2, b1, b2, bt1, b3, b4, b5, b6, b7, b8, b9, b10, b11, b12, b13⟩ := trimSlot_trace h0 hcoh hrec a2 at1 (i := (io + 1) % 3) (by omega) (a3 hc) n1 (by rw [a5 _ (by omega)]; exact hci _) hL1 n2
    ((unvisited_mono a3).trans hb)
  rw [sdiff_chain a3 b3] at b2 bt1
  have hmem : ∀ {S1 : Finset Nat} {s}, s ∈ S → s ∉ D → s ∉ D ∪ (S1 \ S) := fun hs hD => by simp [hs, hD]
  have b4' : ∀ s ∈ S, s ∉ D → s ≠ c → ∀ j, P2.nbr s j = P.nbr s j := fun s hs hD hsc j => by rw [b4 s (a3 hs) (hmem hs hD) hsc, a4 s hs hD hsc]
  obtain ⟨n3, n4⟩ := next (a3.trans b3) b4'
  have hL2 : (c, (io + 2) % 3) ∉ L ++ L1 ++ L2 := by
    intro g
    rcases List.mem_append.1 g with g | g
    · rcases List.mem_append.1 g with g | g
      · exact hL _ g
      · exact far (subset_refl S) (by omega) (a10 _ g) rfl
    · exact far a3 (by omega) (b10 _ g) rfl
  obtain ⟨P3, S3, T3, L3, d1, d2, dt1, d3, d4, d5, d6, d7, d8, d9, d10, d11, d12, d13⟩ := trimSlot_trace h0 hcoh hrec b2 bt1 (i := (io + 2) % 3) (by omega) (b3 (a3 hc)) n3 (by rw [b5 _ (by omega), a5 _ (by omega)]; exact hci _) hL2
    n4 ((unvisited_mono (a3.trans b3)).trans hb)
  rw [sdiff_chain (a3.trans b3) d3] at d2 dt1
  have hcov : ∀ i, i < 3 → i = io % 3 ∨ i = (io + 1) % 3 ∨ i = (io + 2) % 3 := fun i hi => by omega
  have happ : L ++ L1 ++ L2 ++ L3 = L ++ (L1 ++ L2 ++ L3) := by simp
  rw [happ] at dt1
  have t1 : (c, (io + 1) % 3) ∈ T1 ↔ (c, (io + 1) % 3) ∈ T := by
    refine ⟨fun g => ?_, fun g => a8 g⟩
    rcases a11 _ g with g | g
    · exact g
    · exact absurd rfl (far (subset_refl S) (by omega) g)
  have t2 : (c, (io + 2) % 3) ∈ T2 ↔ (c, (io + 2) % 3) ∈ T := by
    refine ⟨fun g => ?_, fun g => b8 (a8 g)⟩
    rcases b11 _ g with g | g
    · rcases a11 _ g with g | g
      · exact g
      · exact absurd rfl (far (subset_refl S) (by omega) g)
    · exact absurd rfl (far a3 (by omega) g)
  have loose : ∀ {e : Nat × Nat} {S1 : Finset Nat} {i : Nat}, S ⊆ S1 → e.1 ∉ S1 ∨ e = (c, i) → e.1 ∉ S ∨ e.1 = c := by
    rintro e S1 i hsub (g | rfl)
    · exact Or.inl fun q => g (hsub q)
    · exact Or.inr rfl
  refine ⟨P3, S3, T3, L1, L2, L3, ?_, d2, dt1, a3.trans (b3.trans d3), fun s hs hD hsc j => by rw [d4 s (b3 (a3 hs)) (hmem hs hD) hsc, b4' s hs hD hsc], fun i hi e he => ?_, fun i hi e he => ?_,
    a8.trans (b8.trans d8), fun i hi => ?_, fun e he => ?_, fun e he => ?_, fun k l hkl => ?_⟩
  · unfold trimSlots
    simp only [a1, b1, d1]
  · rcases hcov i hi with rfl | rfl | rfl
    · rw [d5 _ (by omega), b5 _ (by omega)] at he
      exact d3 (b3 (a6 e he))
    · rw [d5 _ (by omega)] at he
      exact d3 (b6 e he)
    · exact d6 e he
  · rcases hcov i hi with rfl | rfl | rfl
    · exact (a7 e he).imp_left fun g => d3 (b3 g)
    · exact (b7 e (by rw [a5 _ (by omega)]; exact he)).imp_left fun g => d3 g
    · exact d7 e (by rw [b5 _ (by omega), a5 _ (by omega)]; exact he)
  · rw [← happ]
    rcases hcov i hi with rfl | rfl | rfl
    · exact a9.imp (fun g => List.mem_append_left _ (List.mem_append_left _ g)) fun g => d8 (b8 g)
    · exact b9.imp (fun g => List.mem_append_left _ g) fun g => d8 g
    · exact d9
  · rcases List.mem_append.1 he with he | he
    · rcases List.mem_append.1 he with he | he
      · exact loose (subset_refl S) (a10 e he)
      · exact loose a3 (b10 e he)
    · exact loose (a3.trans b3) (d10 e he)
  · rcases d11 e he with he | he
    · rcases b11 e he with he | he
      · exact (a11 e he).imp_right fun g => loose (subset_refl S) g
      · exact Or.inr (loose a3 he)
    · exact Or.inr (loose (a3.trans b3) he)
  · rcases hkl with ⟨rfl, rfl⟩ | ⟨rfl, rfl⟩ | ⟨rfl, rfl⟩
    · exact ⟨a12, a13⟩
    · exact ⟨fun g => b12 (t1.2 g), fun g => b13 fun q => g (t1.1 q)⟩
    · exact ⟨fun g => d12 (t2.2 g), fun g => d13 fun q => g (t2.1 q)⟩

theorem insert_chain {S S1 D : Finset Nat} {c : Nat} (hcS1 : c ∈ S1) (hS : c ∉ S) : insert c (D ∪ (S1 \ insert c S)) = D ∪ (S1 \ S) := by
  ext a
  simp only [Finset.mem_insert, Finset.mem_union, Finset.mem_sdiff, not_or]
  constructor
  · rintro (rfl | g | ⟨g1, g2, g3⟩)
    · exact Or.inr ⟨hcS1, hS⟩
    · exact Or.inl g
    · exact Or.inr ⟨g1, g3⟩
  · rintro (g | ⟨g1, g2⟩)
    · exact Or.inr (Or.inl g)
    · by_cases hac : a = c
      · exact Or.inl hac
      · exact Or.inr (Or.inr ⟨g1, hac, g2⟩)

/-- One corner of the recursion: `S1`, `T1` are the state after it was marked. -/
theorem trimBody_trace (h0 : P0.WF) (hcoh : P0.Coh) {r : Nat} {rec : Nat → Nat → Poly → Option Poly} {bound : Nat} (hrec : RecTrace P0 xo n t r rec bound) {P : Poly} {S D : Finset Nat} {T : Set (Nat × Nat)}
    {L : List (Nat × Nat)} (h : TrimInv P0 xo n P S D) {c : Nat} (io : Nat) (hc : Beyond P0 xo n c) (hS : c ∉ S) (ht : TraceInv P0 xo n t r P (insert c S) D T L) (hL : ∀ i, (c, i) ∉ L)
    (hflag : ∀ s ∈ S, s ∉ D → ∃ i, i < 3 ∧ P.nbr s i = none) (hb : unvisited P0 xo n S ≤ bound + 1) :
    ∃ P1 S' T' L1 L2 L3, trimSlots rec t xo n c io P = some P1 ∧ TrimInv P0 xo n (P1.delete c) S' (D ∪ (S' \ S)) ∧ TraceInv P0 xo n t r (P1.delete c) S' (D ∪ (S' \ S)) T' (L ++ (L1 ++ L2 ++ L3)) ∧ S ⊆ S' ∧ c ∈ S' ∧
      (∀ s ∈ S, s ∉ D → ∀ j, (P1.delete c).nbr s j = P.nbr s j) ∧ T ⊆ T' ∧ (∀ e ∈ L1 ++ L2 ++ L3, e.1 ∉ S) ∧ (∀ e ∈ T', e ∈ T ∨ e.1 ∉ S) ∧
      ∀ k l, (k = 0 ∧ l = L1) ∨ (k = 1 ∧ l = L2) ∨ (k = 2 ∧ l = L3) → ((c, (io + k) % 3) ∈ T → l = []) ∧ ((c, (io + k) % 3) ∉ T → Chain P0 (P0.wall c (((io + k) % 3 + 2) % 3)) l (P0.wall c ((io + k) % 3))) := by
  have hcD : c ∉ D := fun g => hS (h.sub g)
  have hlt := unvisited_insert h0 hc hS
  obtain ⟨P1, S1, T', L1, L2, L3, e1, e2, et, e3, e4, e5, e6, e7, e8, e9, e10, e11⟩ := trimSlots_trace h0 hcoh hrec (h.mark h0 hc hS) ht io (Finset.mem_insert_self _ _) hcD (fun i => h.unseen c hc hS i) hL
    (fun s hs hD hsc => hflag s ((Finset.mem_insert.1 hs).resolve_left hsc) hD) (by omega)
  have hcS1 : c ∈ S1 := e3 (Finset.mem_insert_self _ _)
  have hw : ∀ e : Nat × Nat, e.1 ∉ insert c S ∨ e.1 = c → e.1 ∉ S := by
    rintro e (g | g) q
    · exact g (Finset.mem_insert_of_mem q)
    · exact hS (g ▸ q)
  refine ⟨P1, S1, T', L1, L2, L3, e1, ?_, ?_, (Finset.subset_insert _ _).trans e3, hcS1, fun s hs hD j => ?_, e7, fun e he => hw e (e9 e he), fun e he => (e10 e he).imp_right (hw e), e11⟩
  · have := e2.remove h0 hcS1 e5 fun i hi e he => e6 i hi e (by rw [h.unseen c hc hS]; exact he)
    rw [insert_chain hcS1 hS] at this
    exact this
  · have := et.delete h0 hc e8
    rw [insert_chain hcS1 hS] at this
    exact this
  · have hsc : s ≠ c := by rintro rfl; exact hS hs
    have : (P1.delete c).nbr s j = P1.nbr s j := by simp [Poly.delete, upd, hsc]
    rw [this]
    exact e4 s (Finset.mem_insert_of_mem hs) hD hsc j

theorem trimVertex_trace (h0 : P0.WF) (hcoh : P0.Coh) (hs : P0.Simple) (r f : Nat) : RecTrace P0 xo n t r (trimVertex t xo n f) f := by
  induction f with
  | zero =>
    intro P S D T L d c i j h ht hd hS _ _ _ _ _ _ _ hb
    have := unvisited_insert h0 hd hS
    omega
  | succ f ih =>
    intro P S D T L d c i j h ht hd hS hc hi hj hcd hdc hL hflag hb
    have hne : d ≠ c := by rintro rfl; exact hS hc
    have hnot : ∀ k, (d, k) ∉ T := fun k g => hS (ht.tree _ g).1
    have hslot : firstSlot P d c = j + 1 := by
      unfold firstSlot
      rw [if_neg (Ne.symm hne)]
      rcases slot_spec (P := P) (c := d) (p := fun o => o == some c) with ⟨j', q1, q2, q3⟩ | ⟨-, q⟩
      · have : P0.nbr d j' = some c := by rw [← h.unseen d hd hS]; simpa using q3
        rw [q1, hs d j' j q2 hj hd.live (this.trans hdc.symm)]
      · have := q j hj
        rw [h.unseen d hd hS, hdc] at this
        simp at this
    obtain ⟨P1, S', T', L1, L2, L3, e1, e2, et, e3, e4, e5, e6, e7, e8, e9⟩ := trimBody_trace h0 hcoh ih h (firstSlot P d c) hd hS (ht.mark hs hi hj hc (h.beyond c hc) hd hS hcd hdc hL)
      (fun k g => hS (ht.mem _ g).1) hflag hb
    rw [hslot] at e9
    have mem : ∀ k, k < 3 → ((d, k) ∈ T ∪ {(c, i), (d, j)} ↔ k = j) := fun k hk => by
      constructor
      · rintro (g | g | g)
        · exact absurd g (hnot k)
        · exact absurd (Prod.mk.inj g).1 hne
        · exact (Prod.mk.inj g).2
      · rintro rfl; exact Or.inr (Or.inr rfl)
    have m1 : (j + 1 + 0) % 3 = (j + 1) % 3 := rfl
    have c1 := (e9 0 L1 (Or.inl ⟨rfl, rfl⟩)).2 fun g => by have := (mem _ (by omega)).1 g; omega
    have c2 := (e9 1 L2 (Or.inr (Or.inl ⟨rfl, rfl⟩))).2 fun g => by have := (mem _ (by omega)).1 g; omega
    have c3 := (e9 2 L3 (Or.inr (Or.inr ⟨rfl, rfl⟩))).1 ((mem _ (by omega)).2 (by omega))
    rw [show ((j + 1 + 0) % 3 + 2) % 3 = j by omega, show (j + 1 + 0) % 3 = (j + 1) % 3 by omega] at c1
    rw [show ((j + 1 + 1) % 3 + 2) % 3 = (j + 1) % 3 by omega, show (j + 1 + 1) % 3 = (j + 2) % 3 by omega] at c2
    refine ⟨P1.delete d, S', T', L1 ++ L2 ++ L3, ?_, e2, et, e3, e4, e5, (Set.subset_union_left).trans e6, e6 (Or.inr (Or.inl rfl)), e7, fun e he => ?_, by rw [c3, List.append_nil]; exact c1.append c2⟩
    · unfold trimVertex
      simp only [e1]
      rw [if_neg (by rintro rfl; exact hS hc)]
    · rcases e8 e he with (g | g | g) | g
      · exact Or.inl g
      · exact Or.inr (Or.inr g)
      · exact Or.inr (Or.inl (by rw [show e = (d, j) from g]; exact hS))
      · exact Or.inr (Or.inl g)

/-- The whole walk: it ends at the wall where it began. -/
theorem trimVertex_walk (h0 : P0.WF) (hcoh : P0.Coh) (hs : P0.Simple) {c : Nat} (hc : Beyond P0 xo n c) :
    ∃ Q S T L, trimVertex t xo n (P0.num + 1) c c P0 = some (linkRing P0.num (Q.num - P0.num) P0.num Q) ∧ TrimInv P0 xo n Q S S ∧ TraceInv P0 xo n t c Q S S T L ∧ c ∈ S ∧ Chain P0 (P0.wall c 2) L (P0.wall c 2) := by
  have hcard : unvisited P0 xo n ∅ ≤ P0.num + 1 := by
    unfold unvisited
    refine (Finset.card_filter_le _ _).trans ?_
    rw [Finset.card_range]; omega
  have hio : firstSlot P0 c c = 0 := by unfold firstSlot; rw [if_pos rfl]
  obtain ⟨P1, S, T, L1, L2, L3, e1, e2, et, -, e4, -, -, -, -, e9⟩ := trimBody_trace h0 hcoh (trimVertex_trace (xo := xo) (n := n) (t := t) h0 hcoh hs c P0.num) (TrimInv.start h0) (firstSlot P0 c c) hc (Finset.notMem_empty _)
    (TraceInv.start P0 xo n t c) (by simp) (by simp) hcard
  have hSS : (∅ : Finset Nat) ∪ (S \ ∅) = S := by simp
  rw [hSS] at e2 et
  rw [hio] at e9
  have c1 := (e9 0 L1 (Or.inl ⟨rfl, rfl⟩)).2 (by simp)
  have c2 := (e9 1 L2 (Or.inr (Or.inl ⟨rfl, rfl⟩))).2 (by simp)
  have c3 := (e9 2 L3 (Or.inr (Or.inr ⟨rfl, rfl⟩))).2 (by simp)
  refine ⟨P1.delete c, S, T, _, ?_, e2, et, e4, (c1.append c2).append c3⟩
  unfold trimVertex
  simp only [e1, if_pos]
  rfl

end

end VoroCrust
