import Verif.Props.TrimTrace

/-!
# Consecutive new corners share a wall

The walk of `trim_vertex` passes some edges twice, once in each direction, without making a corner there.  No new corner lies between the two times on one side only, because the corners that stay are
connected.  So these passages cancel between two consecutive new corners.
-/

namespace VoroCrust

open Classical

/-- Every even set of edges is the boundary between two kinds of walls. -/
def Poly.Fill (P : Poly) : Prop :=
  ∀ f, EdgeFun P f → (∀ v, P.Live v → f v 0 + f v 1 + f v 2 = 0) → ∃ χ : Option Wall → ZMod 2, ∀ c i, i < 3 → P.Live c → f c i = χ (P.wall c i) + χ (P.wall c ((i + 2) % 3))

/-- What spreads along the edges between corners of `A` holds at all of `A` or nowhere. -/
def Poly.Conn (P : Poly) (A : Nat → Prop) : Prop :=
  ∀ p : Nat → Prop, (∀ c i d, i < 3 → P.Live c → A c → A d → P.nbr c i = some d → p c → p d) → ∀ a b, A a → A b → p a → p b

theorem char_two (x : ZMod 2) : x + x = 0 := by revert x; decide

theorem eq_of_add_zero {x y : ZMod 2} (h : x + y = 0) : x = y := by revert x y; decide

/-- The change of colour along a walk. -/
theorem Chain.colour {P0 : Poly} {χ : Option Wall → ZMod 2} {F : Nat × Nat → ZMod 2} {a b : Option Wall} {M : List (Nat × Nat)} (h : Chain P0 a M b)
    (hF : ∀ e ∈ M, F e = χ (P0.wall e.1 e.2) + χ (P0.wall e.1 ((e.2 + 2) % 3))) : χ a + χ b = (M.map F).sum := by
  induction M generalizing a with
  | nil => simp only [Chain] at h; subst h; rw [char_two]; rfl
  | cons e M ih =>
    have h1 := ih h.2 fun x hx => hF x (List.mem_cons_of_mem _ hx)
    rw [List.map_cons, List.sum_cons, ← h1, hF e List.mem_cons_self, h.1]
    have : ∀ p q r : ZMod 2, p + q = r + p + (r + q) := by decide
    exact this _ _ _

theorem sum_one {M : List (Nat × Nat)} (hM : M.Nodup) {e e' : Nat × Nat} (he : e ∈ M) (he' : e' ∉ M) : (M.map fun x => if x = e ∨ x = e' then (1 : ZMod 2) else 0).sum = 1 := by
  have key : ∀ (M : List (Nat × Nat)), e' ∉ M → (M.map fun x => if x = e ∨ x = e' then (1 : ZMod 2) else 0).sum = (M.count e : ZMod 2) := by
    intro M
    induction M with
    | nil => intro _; rfl
    | cons a M ih =>
      intro h
      rw [List.mem_cons, not_or] at h
      rw [List.map_cons, List.sum_cons, ih h.2, List.count_cons]
      by_cases hae : a = e
      · rw [if_pos (Or.inl hae)]; simp [hae, add_comm]
      · rw [if_neg (by rintro (g | g); exacts [hae g, h.1 g.symm])]; simp [hae]
  rw [key M he', List.count_eq_one_of_mem hM he]; rfl

/-- The walls at which a walk begins, in order. -/
theorem Chain.walls {P0 : Poly} {a b : Option Wall} {M : List (Nat × Nat)} (h : Chain P0 a M b) : a :: M.map (fun e => P0.wall e.1 e.2) = M.map (fun e => P0.wall e.1 ((e.2 + 2) % 3)) ++ [b] := by
  induction M generalizing a with
  | nil => simp only [Chain] at h; simp [h]
  | cons e M ih =>
    rw [List.map_cons, List.map_cons, List.cons_append, ← ih h.2, h.1]

/-- A walk in which every passage is made in both directions ends where it began. -/
theorem Chain.closed {P0 : Poly} {a b : Option Wall} {M : List (Nat × Nat)} (h : Chain P0 a M b) (hM : M.Nodup) (mate : Nat × Nat → Nat × Nat) (h1 : ∀ e ∈ M, mate e ∈ M) (h2 : ∀ e ∈ M, mate (mate e) = e)
    (h3 : ∀ e ∈ M, P0.wall (mate e).1 (mate e).2 = P0.wall e.1 ((e.2 + 2) % 3)) : a = b := by
  have hnd : (M.map mate).Nodup := by
    refine List.Nodup.map_on (fun x hx y hy hxy => ?_) hM
    rw [← h2 x hx, hxy, h2 y hy]
  have hperm : (M.map mate).Perm M := by
    refine List.Subperm.perm_of_length_le (List.subperm_of_subset hnd fun x hx => ?_) (by simp)
    obtain ⟨y, hy, rfl⟩ := List.mem_map.1 hx
    exact h1 y hy
  have e1 : M.map (fun e => P0.wall e.1 ((e.2 + 2) % 3)) = (M.map mate).map fun e => P0.wall e.1 e.2 := by
    rw [List.map_map]
    exact List.map_congr_left fun e he => (h3 e he).symm
  have hw := h.walls
  rw [e1] at hw
  have p1 : (a :: M.map (fun e => P0.wall e.1 e.2)).Perm (b :: M.map (fun e => P0.wall e.1 e.2)) := by
    rw [hw]
    refine (List.perm_append_comm).trans ?_
    exact List.Perm.cons b (hperm.map _)
  have c1 := p1.count_eq a
  rw [List.count_cons_self, List.count_cons] at c1
  by_contra hne
  rw [if_neg (by simpa using fun g : b = a => hne g.symm)] at c1
  omega

section

variable {P0 : Poly} {xo n : Nat → ℝ} {t r : Nat} {Q : Poly} {S : Finset Nat} {T : Set (Nat × Nat)} {L : List (Nat × Nat)}

theorem wall_same {χ : Option Wall → ZMod 2} {w0 w1 w2 : Option Wall} (h0 : χ w0 + χ w2 = 0) (h1 : χ w1 + χ w0 = 0) : χ w0 = χ w1 ∧ χ w0 = χ w2 := ⟨(eq_of_add_zero h1).symm, eq_of_add_zero h0⟩

/-- The two ends of a passage without a new corner. -/
theorem TraceInv.mate (h0 : P0.WF) (hcoh : P0.Coh) (hs : P0.Simple) (h : TrimInv P0 xo n Q S S) (ht : TraceInv P0 xo n t r Q S S T L) {e : Nat × Nat} (he : e ∈ L) (hcut : ¬ IsCut P0 xo n e) :
    ∃ d j, P0.nbr e.1 e.2 = some d ∧ d ∈ S ∧ j < 3 ∧ P0.nbr d j = some e.1 ∧ (d, j) ∈ L ∧ ¬ IsCut P0 xo n (d, j) ∧ P0.wall d j = P0.wall e.1 ((e.2 + 2) % 3) ∧ P0.wall d ((j + 2) % 3) = P0.wall e.1 e.2 := by
  obtain ⟨g1, g2, g3⟩ := ht.mem e he
  have hl := (h.beyond _ g1).live
  obtain ⟨d, e1, e2, e3⟩ := h0.out e.1 e.2 g2 hl
  obtain ⟨j, hj, e4, e5, e6⟩ := hcoh e.1 e.2 d g2 hl e1
  have hd : d ∈ S := (h.done _ g1 _ g2 d e1).resolve_right fun g => hcut ⟨d, e1, g⟩
  refine ⟨d, j, e1, hd, hj, e4, ?_, ?_, e5, e6⟩
  · rcases ht.full d hd j hj with g | g
    · exact g
    · obtain ⟨-, -, c', i', q1, q2, q3, q4, q5⟩ := ht.tree _ g
      obtain rfl := Option.some.inj (e4.symm.trans q1)
      have : i' = e.2 := hs _ _ _ q3 g2 hl (q4.trans e1.symm)
      rw [this] at q5
      exact absurd q5 g3
  · rintro ⟨a, q1, q2⟩
    obtain rfl := Option.some.inj (e4.symm.trans q1)
    exact (h.beyond _ g1).not_within q2

/-- The colouring that changes at one passage only. -/
theorem TraceInv.colouring (h0 : P0.WF) (hs : P0.Simple) (hfill : P0.Fill) (hconn : P0.Conn (Within P0 xo n)) (hcoh : P0.Coh) (h : TrimInv P0 xo n Q S S) (ht : TraceInv P0 xo n t r Q S S T L) {c i d j : Nat} (hi : i < 3) (hj : j < 3)
    (hc : c ∈ S) (hd : d ∈ S) (e1 : P0.nbr c i = some d) (e2 : P0.nbr d j = some c) :
    ∃ χ : Option Wall → ZMod 2, (∀ e ∈ L, (if e = (c, i) ∨ e = (d, j) then (1 : ZMod 2) else 0) = χ (P0.wall e.1 e.2) + χ (P0.wall e.1 ((e.2 + 2) % 3))) ∧
      ∀ e e', IsCut P0 xo n e → e ∈ L → IsCut P0 xo n e' → e' ∈ L → χ (P0.wall e.1 e.2) = χ (P0.wall e'.1 ((e'.2 + 2) % 3)) := by
  have hcl := (h.beyond c hc).live
  have hdl := (h.beyond d hd).live
  have hcd : c ≠ d := by
    obtain ⟨d', q1, -, q3⟩ := h0.out c i hi hcl
    obtain rfl := Option.some.inj (e1.symm.trans q1)
    exact q3.symm
  obtain ⟨f, f1, f2, f3⟩ := (ht.join c hc).trans (ht.join d hd).symm
  have i1 := edgeInd_fun hs hi hj hcl hdl e1 e2
  obtain ⟨χ, hχ⟩ := hfill (fun v k => f v k + edgeInd c i d j v k) (fun a k b l hk hl ha q1 q2 => by simp only [f1 a k b l hk hl ha q1 q2, i1 a k b l hk hl ha q1 q2]) fun v _ => by
    have e : f v 0 + edgeInd c i d j v 0 + (f v 1 + edgeInd c i d j v 1) + (f v 2 + edgeInd c i d j v 2) = (f v 0 + f v 1 + f v 2) + (edgeInd c i d j v 0 + edgeInd c i d j v 1 + edgeInd c i d j v 2) := by ring
    rw [e, f3, edgeInd_sum hi hj hcd, char_two]
  have hnT : ∀ a k, (a, k) ∉ T → f a k = 0 := fun a k hk => by
    by_contra g
    exact hk (f2 a k g)
  have hL : ∀ e ∈ L, (if e = (c, i) ∨ e = (d, j) then (1 : ZMod 2) else 0) = χ (P0.wall e.1 e.2) + χ (P0.wall e.1 ((e.2 + 2) % 3)) := fun e he => by
    obtain ⟨g1, g2, g3⟩ := ht.mem e he
    rw [← hχ e.1 e.2 g2 (h.beyond _ g1).live, hnT e.1 e.2 g3, zero_add]
    unfold edgeInd
    have : (e = (c, i) ∨ e = (d, j)) ↔ ((e.1 = c ∧ e.2 = i) ∨ (e.1 = d ∧ e.2 = j)) := by rw [Prod.ext_iff, Prod.ext_iff]
    simp only [this]
  have hin : ∀ a, Within P0 xo n a → ∀ k, k < 3 → χ (P0.wall a k) + χ (P0.wall a ((k + 2) % 3)) = 0 := fun a ha k hk => by
    have haS : a ∉ S := fun g => (h.beyond a g).not_within ha
    rw [← hχ a k hk ha.live, hnT a k fun g => haS (ht.tree _ g).1, zero_add]
    unfold edgeInd
    rw [if_neg]
    rintro (⟨rfl, -⟩ | ⟨rfl, -⟩)
    · exact haS hc
    · exact haS hd
  have hsame : ∀ a, Within P0 xo n a → ∀ k, k < 3 → χ (P0.wall a k) = χ (P0.wall a 0) := fun a ha k hk => by
    have q0 := eq_of_add_zero (hin a ha 0 (by omega))
    have q1 := eq_of_add_zero (hin a ha 1 (by omega))
    interval_cases k
    · rfl
    · exact q1
    · exact q0.symm
  have hend : ∀ e, IsCut P0 xo n e → e ∈ L → ∃ a, Within P0 xo n a ∧ χ (P0.wall e.1 e.2) = χ (P0.wall a 0) ∧ χ (P0.wall e.1 ((e.2 + 2) % 3)) = χ (P0.wall a 0) := fun e hcut he => by
    obtain ⟨g1, g2, g3⟩ := ht.mem e he
    obtain ⟨a, q1, q2⟩ := hcut
    obtain ⟨k, hk, -, w1, w2⟩ := hcoh e.1 e.2 a g2 (h.beyond _ g1).live q1
    exact ⟨a, q2, by rw [← w2, hsame a q2 _ (by omega)], by rw [← w1, hsame a q2 _ hk]⟩
  refine ⟨χ, hL, fun e e' he heL he' heL' => ?_⟩
  obtain ⟨a, a1, a2, -⟩ := hend e he heL
  obtain ⟨b, b1, -, b3⟩ := hend e' he' heL'
  rw [a2, b3]
  refine (hconn (fun z => χ (P0.wall z 0) = χ (P0.wall a 0)) (fun u k v hk hu hwu hwv huv hp => ?_) a b a1 b1 rfl).symm
  obtain ⟨l, hl, -, w1, -⟩ := hcoh u k v hk hu huv
  rw [← hsame v hwv l hl, w1, hsame u hwu _ (by omega)]
  exact hp

/-- Between two new corners with none in between the walk stays at one wall. -/
theorem TraceInv.gap (h0 : P0.WF) (hs : P0.Simple) (hfill : P0.Fill) (hconn : P0.Conn (Within P0 xo n)) (hcoh : P0.Coh) (h : TrimInv P0 xo n Q S S) (ht : TraceInv P0 xo n t r Q S S T L) {e e' : Nat × Nat} {M : List (Nat × Nat)}
    (he : IsCut P0 xo n e) (heL : e ∈ L) (he' : IsCut P0 xo n e') (heL' : e' ∈ L) (hM : M.Nodup) (hML : ∀ x ∈ M, x ∈ L ∧ ¬ IsCut P0 xo n x) (hch : Chain P0 (P0.wall e.1 e.2) M (P0.wall e'.1 ((e'.2 + 2) % 3))) :
    P0.wall e.1 e.2 = P0.wall e'.1 ((e'.2 + 2) % 3) := by
  have hm : ∀ x : Nat × Nat, ∃ y : Nat × Nat, x ∈ M → P0.nbr x.1 x.2 = some y.1 ∧ y.1 ∈ S ∧ y.2 < 3 ∧ P0.nbr y.1 y.2 = some x.1 ∧ y ∈ L ∧ ¬ IsCut P0 xo n y ∧ P0.wall y.1 y.2 = P0.wall x.1 ((x.2 + 2) % 3) := fun x => by
    by_cases hx : x ∈ M
    · obtain ⟨d, j, q1, q2, q3, q4, q5, q6, q7, -⟩ := ht.mate h0 hcoh hs h (hML x hx).1 (hML x hx).2
      exact ⟨(d, j), fun _ => ⟨q1, q2, q3, q4, q5, q6, q7⟩⟩
    · exact ⟨x, fun g => absurd g hx⟩
  choose mate hmate using hm
  have hmem : ∀ x ∈ M, mate x ∈ M := fun x hx => by
    by_contra hno
    obtain ⟨q1, q2, q3, q4, q5, q6, q7⟩ := hmate x hx
    obtain ⟨g1, g2, g3⟩ := ht.mem x (hML x hx).1
    obtain ⟨χ, c1, c2⟩ := ht.colouring h0 hs hfill hconn hcoh h g2 q3 g1 q2 q1 q4
    have := hch.colour (χ := χ) (F := fun y => if y = x ∨ y = mate x then (1 : ZMod 2) else 0) fun y hy => c1 y (hML y hy).1
    rw [sum_one hM hx hno, c2 e e' he heL he' heL', char_two] at this
    exact absurd this (by decide)
  refine hch.closed hM mate hmem (fun x hx => ?_) fun x hx => (hmate x hx).2.2.2.2.2.2
  obtain ⟨q1, q2, q3, q4, q5, q6, q7⟩ := hmate x hx
  obtain ⟨p1, p2, p3, p4, p5, p6, p7⟩ := hmate _ (hmem x hx)
  obtain ⟨g1, g2, g3⟩ := ht.mem x (hML x hx).1
  have e1 : (mate (mate x)).1 = x.1 := Option.some.inj (p1.symm.trans q4)
  refine Prod.ext e1 (hs x.1 _ _ p3 g2 (h.beyond _ g1).live ?_)
  rw [← e1, p4, e1, q1]

/-- Consecutive new corners share a wall. -/
theorem TraceInv.ring (h0 : P0.WF) (hs : P0.Simple) (hfill : P0.Fill) (hconn : P0.Conn (Within P0 xo n)) (hcoh : P0.Coh) (h : TrimInv P0 xo n Q S S) (ht : TraceInv P0 xo n t r Q S S T L) {w : Option Wall} (hw : Chain P0 w L w)
    {m : Nat} {e e' : Nat × Nat} (hm : (cutsOf P0 xo n L)[m]? = some e) (hm' : (cutsOf P0 xo n L)[if m + 1 = (cutsOf P0 xo n L).length then 0 else m + 1]? = some e') :
    P0.wall e.1 e.2 = P0.wall e'.1 ((e'.2 + 2) % 3) := by
  have hcutL : ∀ {x}, x ∈ cutsOf P0 xo n L → IsCut P0 xo n x ∧ x ∈ L := fun hx => by
    unfold cutsOf at hx
    rw [List.mem_filter] at hx
    exact ⟨by simpa using hx.2, hx.1⟩
  have he := hcutL (List.mem_of_getElem? hm)
  have he' := hcutL (List.mem_of_getElem? hm')
  have hno : ∀ {l : List (Nat × Nat)}, (∀ a ∈ l, ¬ (decide (IsCut P0 xo n a)) = true) → ∀ a ∈ l, ¬ IsCut P0 xo n a := fun hl a ha => by simpa using hl a ha
  by_cases hlast : m + 1 = (cutsOf P0 xo n L).length
  · rw [if_pos hlast] at hm'
    have hne : (cutsOf P0 xo n L).length ≠ 1 := fun g => h.ring_card h0 (by rw [ht.num, g]; omega)
    obtain ⟨K, hK⟩ : ∃ K, cutsOf P0 xo n L = e' :: (K ++ [e]) := by
      cases hc : cutsOf P0 xo n L with
      | nil => rw [hc] at hm; simp at hm
      | cons a K =>
        rw [hc] at hm hm' hlast hne
        simp only [List.getElem?_cons_zero, Option.some.injEq] at hm'
        subst hm'
        rcases List.eq_nil_or_concat K with rfl | ⟨K', b, rfl⟩
        · simp at hne
        · refine ⟨K', ?_⟩
          rw [List.concat_eq_append] at *
          simp only [List.length_cons, List.length_append, List.length_nil] at hlast
          rw [show m = K'.length + 1 by omega, List.getElem?_cons_succ, List.getElem?_append_right (le_refl _)] at hm
          simp only [Nat.sub_self, List.getElem?_cons_zero, Option.some.injEq] at hm
          rw [hm]
    unfold cutsOf at hK
    obtain ⟨A, R, hL1, hA, -, hR⟩ := List.filter_eq_cons_iff.1 hK
    obtain ⟨R1, R2, hR1, -, hR2⟩ := List.filter_eq_append_iff.1 hR
    obtain ⟨R3, B, hR3, hB0, -, hB⟩ := List.filter_eq_cons_iff.1 hR2
    have hBno : ∀ a ∈ B, ¬ IsCut P0 xo n a := fun a ha => by
      have := List.filter_eq_nil_iff.1 hB a ha
      simpa using this
    have hLL : L = A ++ ([e'] ++ (R1 ++ R3) ++ [e]) ++ B := by rw [hL1, hR1, hR3]; simp
    rw [hLL] at hw
    obtain ⟨b, w1, w2⟩ := hw.split
    obtain ⟨b', w3, w4⟩ := w1.split
    obtain ⟨b'', w5, w6⟩ := w4.split
    have hb : b = P0.wall e.1 e.2 := by
      simp only [Chain] at w6
      exact w6.2.symm
    have hb' : b' = P0.wall e'.1 ((e'.2 + 2) % 3) := w5.1
    have hnd := ht.nodup
    rw [hLL] at hnd
    refine ht.gap h0 hs hfill hconn hcoh h (M := B ++ A) he.1 he.2 he'.1 he'.2 ?_ (fun x hx => ?_) (by rw [← hb, ← hb']; exact w2.append w3)
    · have : (A ++ ([e'] ++ (R1 ++ R3) ++ [e]) ++ B).Perm (([e'] ++ (R1 ++ R3) ++ [e]) ++ (B ++ A)) := by
        rw [List.append_assoc]
        refine List.perm_append_comm.trans ?_
        rw [List.append_assoc]
      exact (List.nodup_append.1 (this.nodup_iff.1 hnd)).2.1
    · rcases List.mem_append.1 hx with g | g
      · exact ⟨by rw [hLL]; simp [g], hBno x g⟩
      · exact ⟨by rw [hLL]; simp [g], hno hA x g⟩
  · rw [if_neg hlast] at hm'
    have hlt := (List.getElem?_eq_some_iff.1 hm').1
    obtain ⟨K1, K2, hK⟩ : ∃ K1 K2, cutsOf P0 xo n L = K1 ++ (e :: e' :: K2) := by
      refine ⟨(cutsOf P0 xo n L).take m, (cutsOf P0 xo n L).drop (m + 2), ?_⟩
      have d1 : (cutsOf P0 xo n L).drop m = e :: (cutsOf P0 xo n L).drop (m + 1) := by
        rw [List.drop_eq_getElem_cons (by omega)]
        rw [List.getElem?_eq_getElem (by omega)] at hm
        rw [Option.some.inj hm]
      have d2 : (cutsOf P0 xo n L).drop (m + 1) = e' :: (cutsOf P0 xo n L).drop (m + 2) := by
        rw [List.drop_eq_getElem_cons hlt]
        rw [List.getElem?_eq_getElem hlt] at hm'
        rw [Option.some.inj hm']
      rw [← d2, ← d1, List.take_append_drop]
    unfold cutsOf at hK
    obtain ⟨L1, L2, hL1, -, hL2⟩ := List.filter_eq_append_iff.1 hK
    obtain ⟨A, R, hA1, -, -, hR⟩ := List.filter_eq_cons_iff.1 hL2
    obtain ⟨M, B, hB1, hM, -, -⟩ := List.filter_eq_cons_iff.1 hR
    have hLL : L = (L1 ++ A ++ [e]) ++ (M ++ ([e'] ++ B)) := by rw [hL1, hA1, hB1]; simp
    rw [hLL] at hw
    obtain ⟨b, w1, w2⟩ := hw.split
    obtain ⟨b1, w3, w4⟩ := w1.split
    obtain ⟨b2, w5, w6⟩ := w2.split
    have hb : b = P0.wall e.1 e.2 := w4.2.symm
    have hb2 : b2 = P0.wall e'.1 ((e'.2 + 2) % 3) := w6.1
    have hnd := ht.nodup
    rw [hLL] at hnd
    refine ht.gap h0 hs hfill hconn hcoh h (M := M) he.1 he.2 he'.1 he'.2 ?_ (fun x hx => ⟨by rw [hLL]; simp [hx], hno hM x hx⟩) (by rw [← hb, ← hb2]; exact w5)
    exact (List.nodup_append.1 (List.nodup_append.1 hnd).2.1).1

end

end VoroCrust
