import Verif.Props.Cell

/-! # A cell that is computed: the case that C51 and C77 are not void -/

namespace VoroCrust.CellRun

/-- Three rational coordinates. -/
abbrev V3 := ℚ × ℚ × ℚ

/-- `Poly` with rational coordinates. -/
structure PolyQ where
  num : Nat
  cap : Nat
  pos : Nat → Option V3
  nbr : Nat → Nat → Option Nat
  wall : Nat → Nat → Option Wall

def sideQ (xo n v : V3) : ℚ := n.1 * (v.1 - xo.1) + n.2.1 * (v.2.1 - xo.2.1) + n.2.2 * (v.2.2 - xo.2.2)

def PolyQ.setNbr (P : PolyQ) (c i : Nat) (v : Option Nat) : PolyQ := { P with nbr := fun a j => if a = c ∧ j = i then v else P.nbr a j }

def PolyQ.slot (P : PolyQ) (c : Nat) (p : Option Nat → Bool) : Option Nat := if p (P.nbr c 0) then some 0 else if p (P.nbr c 1) then some 1 else if p (P.nbr c 2) then some 2 else none

def PolyQ.redirect (P : PolyQ) (d c k : Nat) : PolyQ :=
  match P.slot d (fun o => o == some c) with
  | some j => P.setNbr d j (some k)
  | none => P

def cutParamQ (xi xj : ℚ) : ℚ := if xi / (xi - xj) < 0 then 0 else if 1 < xi / (xi - xj) then 1 else xi / (xi - xj)

def cutPoint (s : ℚ) (a b : V3) : V3 := (a.1 + s * (b.1 - a.1), a.2.1 + s * (b.2.1 - a.2.1), a.2.2 + s * (b.2.2 - a.2.2))

def cutEdgeQ (t : Nat) (xo n : V3) (c i d : Nat) (xc xd : V3) (P : PolyQ) : Option PolyQ :=
  match P.wall c i, P.wall c ((i + 2) % 3) with
  | some wi, some wm =>
    if P.num < P.cap then
      some (PolyQ.redirect
        { num := P.num + 1
          cap := if P.num + 1 = P.cap then 2 * P.cap else P.cap
          pos := upd P.pos P.num (some (cutPoint (cutParamQ (sideQ xo n xc) (sideQ xo n xd)) xc xd))
          nbr := upd P.nbr P.num fun j => if j = i then some d else none
          wall := upd P.wall P.num fun j => if j = i then some wi else if j = (i + 2) % 3 then some wm else some (Wall.pt t) } d c P.num)
    else none
  | _, _ => none

def trimSlotQ (rec : Nat → Nat → PolyQ → Option PolyQ) (t : Nat) (xo n : V3) (c i : Nat) (P : PolyQ) : Option PolyQ :=
  match P.nbr c i with
  | none => some P
  | some d =>
    if P.num ≤ d then none
    else if P.nbr d 0 = none ∨ P.nbr d 1 = none ∨ P.nbr d 2 = none then some P
    else
      match P.pos c, P.pos d with
      | some xc, some xd => if sideQ xo n xd > 1e-10 then rec d c (P.setNbr c i none) else cutEdgeQ t xo n c i d xc xd (P.setNbr c i none)
      | _, _ => none

def trimSlotsQ (rec : Nat → Nat → PolyQ → Option PolyQ) (t : Nat) (xo n : V3) (c io : Nat) (P : PolyQ) : Option PolyQ :=
  match trimSlotQ rec t xo n c (io % 3) P with
  | none => none
  | some P =>
    match trimSlotQ rec t xo n c ((io + 1) % 3) P with
    | none => none
    | some P => trimSlotQ rec t xo n c ((io + 2) % 3) P

def PolyQ.delete (P : PolyQ) (c : Nat) : PolyQ := { P with pos := upd P.pos c none, nbr := upd P.nbr c fun _ => none, wall := upd P.wall c fun _ => none }

def PolyQ.link (P : PolyQ) (lo i : Nat) : PolyQ :=
  match P.slot i (fun o => o.isSome) with
  | some j => (P.setNbr i ((j + 1) % 3) (some (if i + 1 = P.num then lo else i + 1))).setNbr i ((j + 2) % 3) (some (if lo < i then i - 1 else P.num - 1))
  | none => P

def linkRingQ (lo : Nat) : Nat → Nat → PolyQ → PolyQ
  | 0, _, P => P
  | k + 1, i, P => linkRingQ lo k (i + 1) (P.link lo i)

def firstSlotQ (P : PolyQ) (c old : Nat) : Nat :=
  if old = c then 0
  else
    match P.slot c (fun o => o == some old) with
    | some j => j + 1
    | none => 0

def trimVertexQ (t : Nat) (xo n : V3) : Nat → Nat → Nat → PolyQ → Option PolyQ
  | 0, _, _, _ => none
  | f + 1, c, old, P =>
    match trimSlotsQ (trimVertexQ t xo n f) t xo n c (firstSlotQ P c old) P with
    | none => none
    | some P1 => some (if c = old then linkRingQ P.num (P1.num - P.num) P.num (P1.delete c) else P1.delete c)

def dotQ (x a b : V3) : ℚ := (a.1 - x.1) * (b.1 - x.1) + (a.2.1 - x.2.1) * (b.2.1 - x.2.1) + (a.2.2 - x.2.2) * (b.2.2 - x.2.2)

def bestSeedQ (x v : V3) : List V3 → Nat → Option (ℚ × Nat × V3) → Option (ℚ × Nat × V3)
  | [], _, b => b
  | y :: ys, j, b =>
    if dotQ x y v < 1e-10 then bestSeedQ x v ys (j + 1) b
    else
      match b with
      | none => bestSeedQ x v ys (j + 1) (some (dotQ x y y / dotQ x y v, j, y))
      | some (l, a, z) => if dotQ x y y / dotQ x y v < l then bestSeedQ x v ys (j + 1) (some (dotQ x y y / dotQ x y v, j, y)) else bestSeedQ x v ys (j + 1) (some (l, a, z))

def midQ (x y : V3) : V3 := (0.5 * (y.1 + x.1), 0.5 * (y.2.1 + x.2.1), 0.5 * (y.2.2 + x.2.2))

/-- The normal, with the length of the difference given. -/
def normalQ (s : ℚ) (x y : V3) : V3 := ((y.1 - x.1) / s, (y.2.1 - x.2.1) / s, (y.2.2 - x.2.2) / s)

def cellStepQ (s : ℚ) (x : V3) (loc : List V3) (c : Nat) (P : PolyQ) : Option PolyQ :=
  match P.pos c with
  | none => some P
  | some v =>
    match bestSeedQ x v loc 0 none with
    | none => some P
    | some (l, j, y) =>
      if l > 2 then some P
      else if sideQ (midQ x y) (normalQ s x y) v ≤ 1e-10 then some P
      else trimVertexQ j (midQ x y) (normalQ s x y) (P.num + 1) c c P

def cellLoopQ (s : ℚ) (x : V3) (loc : List V3) : Nat → Nat → PolyQ → Option (Option PolyQ)
  | 0, _, _ => some none
  | f + 1, c, P =>
    if c < P.num then
      match cellStepQ s x loc c P with
      | none => none
      | some P => cellLoopQ s x loc f (c + 1) P
    else some (some P)

def boxSignQ (c d : Nat) : ℚ :=
  if d = 0 then (if c < 4 then 1 else -1) else if d = 1 then (if c % 4 < 2 then -1 else 1) else if d = 2 then (if c % 2 = 0 then 1 else -1) else 0

def initPolyQ (x : V3) (r : ℚ) : PolyQ where
  num := 8
  cap := 100
  pos c := if c < 8 then some (x.1 + boxSignQ c 0 * r, x.2.1 + boxSignQ c 1 * r, x.2.2 + boxSignQ c 2 * r) else none
  nbr c i := (boxNbr.getD c [])[i]?
  wall c i := ((boxWall.getD c [])[i]?).map Wall.box

/-- Four seeds around the origin. -/
def seeds : List V3 := [(0, 0, 0), (2, 2, 1), (2, -2, -1), (-2, 1, -2), (-2, -1, 2)]

/-- What the run must end with. -/
def good (P : PolyQ) : Bool :=
  P.num == 27 && (List.range 27).countP (fun c => (P.pos c).isSome) == 4 && (List.range 27).all fun c =>
    match P.pos c with
    | none => true
    | some v => decide (dotQ (0, 0, 0) v v ≤ 25) && (List.range 3).all fun i => match P.wall c i with | some (Wall.pt j) => decide (j < 5) | _ => false

def run : Option (Option PolyQ) := cellLoopQ 3 (0, 0, 0) seeds 100 0 (initPolyQ (0, 0, 0) 2000)

theorem run_good : (match run with | some (some P) => good P | _ => false) = true := by decide +kernel

/-! ## The run in exact real arithmetic -/

/-- A rational point as a point of the model. -/
noncomputable def cast (v : V3) : Nat → ℝ := fun e => if e = 0 then (v.1 : ℝ) else if e = 1 then (v.2.1 : ℝ) else if e = 2 then (v.2.2 : ℝ) else 0

/-- A rational polytope as a polytope of the model. -/
noncomputable def PolyQ.toPoly (P : PolyQ) : Poly := ⟨P.num, P.cap, fun c => (P.pos c).map cast, P.nbr, P.wall⟩

theorem cast0 (v : V3) : cast v 0 = (v.1 : ℝ) := rfl
theorem cast1 (v : V3) : cast v 1 = (v.2.1 : ℝ) := rfl
theorem cast2 (v : V3) : cast v 2 = (v.2.2 : ℝ) := rfl

theorem cast_ext {f : Nat → ℝ} {v : V3} (h0 : f 0 = v.1) (h1 : f 1 = v.2.1) (h2 : f 2 = v.2.2) (h : ∀ e, 3 ≤ e → f e = 0) : f = cast v := by
  funext e
  unfold cast
  split_ifs with a b c
  · rw [a, h0]
  · rw [b, h1]
  · rw [c, h2]
  · exact h e (by omega)

theorem cast_high (v : V3) {e : Nat} (h : 3 ≤ e) : cast v e = 0 := by
  unfold cast
  rw [if_neg (by omega), if_neg (by omega), if_neg (by omega)]

theorem side_cast (xo n v : V3) : side (cast xo) (cast n) (cast v) = (sideQ xo n v : ℝ) := by
  unfold side sideQ
  simp only [cast0, cast1, cast2]
  push_cast
  ring

theorem cutParam_cast (a b : ℚ) : cutParam (a : ℝ) (b : ℝ) = (cutParamQ a b : ℝ) := by
  unfold cutParam cutParamQ
  have e : (a : ℝ) / ((a : ℝ) - (b : ℝ)) = ((a / (a - b) : ℚ) : ℝ) := by push_cast; rfl
  rw [e]
  have h1 : (((a / (a - b) : ℚ) : ℝ) < 0) ↔ a / (a - b) < 0 := by exact_mod_cast Iff.rfl
  have h2 : (1 < ((a / (a - b) : ℚ) : ℝ)) ↔ 1 < a / (a - b) := by exact_mod_cast Iff.rfl
  simp only [h1, h2]
  split_ifs <;> simp

theorem tol_cast (a : ℚ) : ((a : ℝ) > 1e-10) ↔ a > 1e-10 := by
  have : (1e-10 : ℝ) = ((1e-10 : ℚ) : ℝ) := by norm_num
  rw [this, gt_iff_lt, gt_iff_lt, Rat.cast_lt]

theorem tol_cast' (a : ℚ) : ((a : ℝ) ≤ 1e-10) ↔ a ≤ 1e-10 := by rw [← not_lt, ← not_lt]; exact not_congr (tol_cast a)

theorem tol_cast_lt (a : ℚ) : ((a : ℝ) < 1e-10) ↔ a < 1e-10 := by
  have : (1e-10 : ℝ) = ((1e-10 : ℚ) : ℝ) := by norm_num
  rw [this, Rat.cast_lt]

theorem setNbr_cast (P : PolyQ) (c i : Nat) (v : Option Nat) : (P.setNbr c i v).toPoly = P.toPoly.setNbr c i v := rfl

theorem slot_cast (P : PolyQ) (c : Nat) (p : Option Nat → Bool) : P.toPoly.slot c p = P.slot c p := rfl

theorem redirect_cast (P : PolyQ) (d c k : Nat) : (P.redirect d c k).toPoly = P.toPoly.redirect d c k := by
  unfold PolyQ.redirect Poly.redirect
  rw [slot_cast]
  cases P.slot d (fun o => o == some c) <;> rfl

theorem cutEdge_cast (t : Nat) (xo n : V3) (c i d : Nat) (xc xd : V3) (P : PolyQ) :
    cutEdge t (cast xo) (cast n) c i d (cast xc) (cast xd) P.toPoly = (cutEdgeQ t xo n c i d xc xd P).map PolyQ.toPoly := by
  unfold cutEdge cutEdgeQ
  rw [show P.toPoly.wall = P.wall from rfl, show P.toPoly.num = P.num from rfl, show P.toPoly.cap = P.cap from rfl, show P.toPoly.nbr = P.nbr from rfl]
  cases h1 : P.wall c i with
  | none => rfl
  | some wi =>
    cases h2 : P.wall c ((i + 2) % 3) with
    | none => rfl
    | some wm =>
      simp only
      by_cases h3 : P.num < P.cap
      · rw [if_pos h3, if_pos h3, Option.map_some, redirect_cast]
        congr 2
        unfold PolyQ.toPoly
        simp only [Poly.mk.injEq, true_and, and_true]
        funext a
        unfold upd
        split_ifs with ha
        · rw [Option.map_some]
          congr 1
          rw [side_cast, side_cast, cutParam_cast]
          refine cast_ext ?_ ?_ ?_ fun e he => ?_
          · simp only [cast0, cutPoint]; push_cast; ring
          · simp only [cast1, cutPoint]; push_cast; ring
          · simp only [cast2, cutPoint]; push_cast; ring
          · rw [cast_high _ he, cast_high _ he]; ring
        · rfl
      · rw [if_neg h3, if_neg h3]; rfl

theorem trimSlot_cast {rec : Nat → Nat → Poly → Option Poly} {recQ : Nat → Nat → PolyQ → Option PolyQ} (hrec : ∀ d c P, rec d c P.toPoly = (recQ d c P).map PolyQ.toPoly) (t : Nat) (xo n : V3) (c i : Nat) (P : PolyQ) :
    trimSlot rec t (cast xo) (cast n) c i P.toPoly = (trimSlotQ recQ t xo n c i P).map PolyQ.toPoly := by
  unfold trimSlot trimSlotQ
  rw [show P.toPoly.num = P.num from rfl, show P.toPoly.nbr = P.nbr from rfl]
  cases h1 : P.nbr c i with
  | none => rfl
  | some d =>
    simp only
    by_cases h2 : P.num ≤ d
    · rw [if_pos h2, if_pos h2]; rfl
    · rw [if_neg h2, if_neg h2]
      by_cases h3 : P.nbr d 0 = none ∨ P.nbr d 1 = none ∨ P.nbr d 2 = none
      · rw [if_pos h3, if_pos h3]; rfl
      · rw [if_neg h3, if_neg h3]
        rw [show P.toPoly.pos c = (P.pos c).map cast from rfl, show P.toPoly.pos d = (P.pos d).map cast from rfl]
        cases h4 : P.pos c with
        | none => rfl
        | some xc =>
          cases h5 : P.pos d with
          | none => rfl
          | some xd =>
            simp only [Option.map_some]
            rw [side_cast]
            by_cases h6 : sideQ xo n xd > 1e-10
            · rw [if_pos ((tol_cast _).2 h6), if_pos h6, ← setNbr_cast, hrec]
            · rw [if_neg (fun g => h6 ((tol_cast _).1 g)), if_neg h6, ← setNbr_cast, cutEdge_cast]

theorem trimSlots_cast {rec : Nat → Nat → Poly → Option Poly} {recQ : Nat → Nat → PolyQ → Option PolyQ} (hrec : ∀ d c P, rec d c P.toPoly = (recQ d c P).map PolyQ.toPoly) (t : Nat) (xo n : V3) (c io : Nat) (P : PolyQ) :
    trimSlots rec t (cast xo) (cast n) c io P.toPoly = (trimSlotsQ recQ t xo n c io P).map PolyQ.toPoly := by
  unfold trimSlots trimSlotsQ
  rw [trimSlot_cast hrec]
  cases trimSlotQ recQ t xo n c (io % 3) P with
  | none => rfl
  | some P1 =>
    simp only [Option.map_some]
    rw [trimSlot_cast hrec]
    cases trimSlotQ recQ t xo n c ((io + 1) % 3) P1 with
    | none => rfl
    | some P2 =>
      simp only [Option.map_some]
      rw [trimSlot_cast hrec]

theorem delete_cast (P : PolyQ) (c : Nat) : (P.delete c).toPoly = P.toPoly.delete c := by
  unfold PolyQ.delete Poly.delete PolyQ.toPoly
  simp only [Poly.mk.injEq, true_and, and_true]
  funext a
  unfold upd
  split_ifs <;> rfl

theorem link_cast (P : PolyQ) (lo i : Nat) : (P.link lo i).toPoly = P.toPoly.link lo i := by
  unfold PolyQ.link Poly.link
  rw [slot_cast]
  cases P.slot i (fun o => o.isSome) <;> rfl

theorem linkRing_cast (lo k : Nat) : ∀ (i : Nat) (P : PolyQ), (linkRingQ lo k i P).toPoly = linkRing lo k i P.toPoly := by
  induction k with
  | zero => intro i P; rfl
  | succ k ih => intro i P; unfold linkRingQ linkRing; rw [ih, link_cast]

theorem firstSlot_cast (P : PolyQ) (c old : Nat) : firstSlot P.toPoly c old = firstSlotQ P c old := rfl

theorem trimVertex_cast (t : Nat) (xo n : V3) (f : Nat) : ∀ (c old : Nat) (P : PolyQ), trimVertex t (cast xo) (cast n) f c old P.toPoly = (trimVertexQ t xo n f c old P).map PolyQ.toPoly := by
  induction f with
  | zero => intro c old P; rfl
  | succ f ih =>
    intro c old P
    unfold trimVertex trimVertexQ
    rw [firstSlot_cast, trimSlots_cast ih]
    cases trimSlotsQ (trimVertexQ t xo n f) t xo n c (firstSlotQ P c old) P with
    | none => rfl
    | some P1 =>
      simp only [Option.map_some]
      congr 1
      by_cases h : c = old
      · rw [if_pos h, if_pos h, linkRing_cast, delete_cast]; rfl
      · rw [if_neg h, if_neg h, delete_cast]

theorem dot_cast (x a b : V3) : dotDiff (cast x) (cast a) (cast b) = (dotQ x a b : ℝ) := by
  unfold dotDiff dotQ
  simp only [cast0, cast1, cast2]
  push_cast
  ring

/-- The result of the search for the closest seed. -/
noncomputable def castBest (b : ℚ × Nat × V3) : ℝ × Nat × (Nat → ℝ) := ((b.1 : ℝ), b.2.1, cast b.2.2)

theorem bestSeed_cast (x v : V3) (ys : List V3) : ∀ (j : Nat) (b : Option (ℚ × Nat × V3)), bestSeed (cast x) (cast v) (ys.map cast) j (b.map castBest) = (bestSeedQ x v ys j b).map castBest := by
  induction ys with
  | nil => intro j b; rfl
  | cons y ys ih =>
    intro j b
    rw [List.map_cons]
    unfold bestSeed bestSeedQ
    have hq : dotDiff (cast x) (cast y) (cast y) / dotDiff (cast x) (cast y) (cast v) = ((dotQ x y y / dotQ x y v : ℚ) : ℝ) := by rw [dot_cast, dot_cast]; push_cast; rfl
    have hnew : bestSeed (cast x) (cast v) (ys.map cast) (j + 1) (some (dotDiff (cast x) (cast y) (cast y) / dotDiff (cast x) (cast y) (cast v), j, cast y)) =
        (bestSeedQ x v ys (j + 1) (some (dotQ x y y / dotQ x y v, j, y))).map castBest := by
      rw [← ih, hq]; rfl
    by_cases h : dotQ x y v < 1e-10
    · rw [if_pos (by rw [dot_cast]; exact (tol_cast_lt _).2 h), if_pos h, ih]
    · rw [if_neg (by rw [dot_cast]; exact fun g => h ((tol_cast_lt _).1 g)), if_neg h]
      cases b with
      | none => exact hnew
      | some b =>
        obtain ⟨l, a, z⟩ := b
        simp only [Option.map_some, castBest]
        by_cases h2 : dotQ x y y / dotQ x y v < l
        · rw [if_pos (by rw [hq]; exact_mod_cast h2), if_pos h2]; exact hnew
        · rw [if_neg (by rw [hq]; exact_mod_cast h2), if_neg h2, ← ih]; rfl

theorem mid_cast (x y : V3) : midPoint (cast x) (cast y) = cast (midQ x y) := by
  refine cast_ext ?_ ?_ ?_ fun e he => ?_
  · simp only [midPoint, cast0, midQ]; push_cast; ring
  · simp only [midPoint, cast1, midQ]; push_cast; ring
  · simp only [midPoint, cast2, midQ]; push_cast; ring
  · simp only [midPoint, cast_high _ he]; ring

theorem normal_cast {s : ℚ} {x y : V3} (h : Real.sqrt (dotDiff (cast x) (cast y) (cast y)) = (s : ℝ)) : bisectorNormal (cast x) (cast y) = cast (normalQ s x y) := by
  refine cast_ext ?_ ?_ ?_ fun e he => ?_
  · simp only [bisectorNormal, h, cast0, normalQ]; push_cast; ring
  · simp only [bisectorNormal, h, cast1, normalQ]; push_cast; ring
  · simp only [bisectorNormal, h, cast2, normalQ]; push_cast; ring
  · simp only [bisectorNormal, cast_high _ he]; ring

theorem cellStep_cast {s : ℚ} {x : V3} {loc : List V3} (hs : ∀ y ∈ loc, dotDiff (cast x) (cast y) (cast y) = 0 ∨ Real.sqrt (dotDiff (cast x) (cast y) (cast y)) = (s : ℝ)) (c : Nat) (P : PolyQ) :
    cellStep (cast x) (loc.map cast) c P.toPoly = (cellStepQ s x loc c P).map PolyQ.toPoly := by
  unfold cellStep cellStepQ
  rw [show P.toPoly.pos c = (P.pos c).map cast from rfl, show P.toPoly.num = P.num from rfl]
  cases P.pos c with
  | none => rfl
  | some v =>
    simp only [Option.map_some]
    have hb := bestSeed_cast x v loc 0 none
    rw [Option.map_none] at hb
    rw [hb]
    cases hq : bestSeedQ x v loc 0 none with
    | none => rfl
    | some b =>
      obtain ⟨l, j, y⟩ := b
      simp only [Option.map_some, castBest]
      have hsq : Real.sqrt (dotDiff (cast x) (cast y) (cast y)) = (s : ℝ) := by
        rw [hq] at hb
        obtain ⟨g1, g2, -⟩ := ((bestSeed_spec _ 0 none).2 _ _ _ hb).1.resolve_left (by simp)
        simp only at g1 g2
        obtain ⟨y', hy', e⟩ := List.mem_map.1 g1
        rw [← e]
        refine (hs y' hy').resolve_left fun h0 => ?_
        have hc := dotDiff_cauchy (cast x) (cast y) (cast v)
        rw [← e, h0, zero_mul, e] at hc
        have : (0 : ℝ) < dotDiff (cast x) (cast y) (cast v) := lt_of_lt_of_le (by norm_num) g2
        have := pow_pos this 2
        linarith
      rw [normal_cast hsq, mid_cast, side_cast]
      have h2 : ((l : ℝ) > 2) ↔ l > 2 := by exact_mod_cast Iff.rfl
      by_cases h3 : l > 2
      · rw [if_pos (h2.2 h3), if_pos h3]; rfl
      · rw [if_neg (fun g => h3 (h2.1 g)), if_neg h3]
        by_cases h4 : sideQ (midQ x y) (normalQ s x y) v ≤ 1e-10
        · rw [if_pos ((tol_cast' _).2 h4), if_pos h4]; rfl
        · rw [if_neg (fun g => h4 ((tol_cast' _).1 g)), if_neg h4, trimVertex_cast]

theorem cellLoop_cast {s : ℚ} {x : V3} {loc : List V3} (hs : ∀ y ∈ loc, dotDiff (cast x) (cast y) (cast y) = 0 ∨ Real.sqrt (dotDiff (cast x) (cast y) (cast y)) = (s : ℝ)) (f : Nat) : ∀ (c : Nat) (P : PolyQ),
    cellLoop (cast x) (loc.map cast) f c P.toPoly = (cellLoopQ s x loc f c P).map fun o => o.map PolyQ.toPoly := by
  induction f with
  | zero => intro c P; rfl
  | succ f ih =>
    intro c P
    unfold cellLoop cellLoopQ
    rw [show P.toPoly.num = P.num from rfl]
    by_cases h : c < P.num
    · rw [if_pos h, if_pos h, cellStep_cast hs]
      cases cellStepQ s x loc c P with
      | none => rfl
      | some P1 => exact ih (c + 1) P1
    · rw [if_neg h, if_neg h]; rfl

theorem initPoly_cast (x : V3) (r : ℚ) : initPoly (cast x) (r : ℝ) = (initPolyQ x r).toPoly := by
  unfold initPoly initPolyQ PolyQ.toPoly
  simp only [Poly.mk.injEq, true_and, and_true]
  funext c
  by_cases h : c < 8
  · rw [if_pos h, if_pos h, Option.map_some]
    congr 1
    refine cast_ext ?_ ?_ ?_ fun e he => ?_
    · simp only [cast0, boxSign, boxSignQ]; push_cast; split_ifs <;> simp_all
    · simp only [cast1, boxSign, boxSignQ]; push_cast; split_ifs <;> simp_all
    · simp only [cast2, boxSign, boxSignQ]; push_cast; split_ifs <;> simp_all
    · rw [cast_high _ he]; unfold boxSign; rw [if_neg (by omega), if_neg (by omega), if_neg (by omega)]; ring
  · rw [if_neg h, if_neg h]; rfl

/-- The five seeds, inserted one by one. -/
theorem tree : ∃ st, addTreePoints realLt 3 (fun _ _ => false) (seeds.map cast) (SmartTree.empty (fun _ _ => (0 : ℝ)) id id) = some st ∧ st.num = 5 ∧
    (∀ i, i < 5 → st.pts i = cast (seeds.getD i (0, 0, 0))) ∧ st.links.origin = some 0 ∧
    st.links.right 0 = 1 ∧ st.links.right 1 = 1 ∧ st.links.right 2 = 2 ∧ st.links.right 3 = 3 ∧ st.links.right 4 = 4 ∧
    st.links.left 0 = 3 ∧ st.links.left 1 = 2 ∧ st.links.left 2 = 2 ∧ st.links.left 3 = 4 ∧ st.links.left 4 = 4 := by
  norm_num [seeds, addTreePoints, addTreePoint, SmartTree.empty, kdAddPoint, insertWalk, upd, realLt, cast, nextDim]
  intro i hi
  interval_cases i <;> norm_num [cast]

/-- The corners of the run, all within distance 5 and bounded by bisectors only. -/
theorem good_spec {P : PolyQ} (h : good P = true) : P.num = 27 ∧ (List.range 27).countP (fun c => (P.pos c).isSome) = 4 ∧
    ∀ c v, c < 27 → P.pos c = some v → dotQ (0, 0, 0) v v ≤ 25 ∧ ∀ i, i < 3 → ∃ j, P.wall c i = some (Wall.pt j) := by
  unfold good at h
  simp only [Bool.and_eq_true, beq_iff_eq, List.all_eq_true, List.mem_range] at h
  refine ⟨h.1.1, h.1.2, fun c v hc hv => ?_⟩
  have := h.2 c hc
  rw [hv] at this
  simp only [Bool.and_eq_true, decide_eq_true_eq, List.all_eq_true, List.mem_range] at this
  refine ⟨this.1, fun i hi => ?_⟩
  have g := this.2 i hi
  cases hw : P.wall c i with
  | none => rw [hw] at g; simp at g
  | some w =>
    rw [hw] at g
    cases w with
    | pt j => exact ⟨j, rfl⟩
    | box k => simp at g

theorem farthestSq_bound {x : Nat → ℝ} {P : Poly} {B : ℝ} (hB : 0 ≤ B) (m : Nat) (h : ∀ c, c < m → ∀ v, P.pos c = some v → distSq3 v x ≤ B) : farthestSq x P m ≤ B := by
  induction m with
  | zero => exact hB
  | succ m ih =>
    unfold farthestSq
    have := ih fun c hc => h c (by omega)
    cases hp : P.pos m with
    | none => exact this
    | some v =>
      simp only
      split_ifs
      · exact h m (by omega) v hp
      · exact this

theorem good_accepted {Q : PolyQ} (g1 : Q.num = 27) (g3 : ∀ c v, c < 27 → Q.pos c = some v → dotQ (0, 0, 0) v v ≤ 25 ∧ ∀ i, i < 3 → ∃ j, Q.wall c i = some (Wall.pt j)) :
    2 * Real.sqrt (farthestSq (cast (0, 0, 0)) Q.toPoly Q.toPoly.num) < 100 * 2 + 1e-10 := by
  have hfar : farthestSq (cast (0, 0, 0)) Q.toPoly Q.toPoly.num ≤ 25 := by
    refine farthestSq_bound (by norm_num) _ fun c hc v hv => ?_
    obtain ⟨w, hw, rfl⟩ := Option.map_eq_some_iff.1 hv
    have := (g3 c w (g1 ▸ hc) hw).1
    have h' : ((dotQ (0, 0, 0) w w : ℚ) : ℝ) ≤ 25 := by exact_mod_cast this
    refine le_trans (le_of_eq ?_) h'
    unfold distSq3 dotQ cast
    push_cast
    norm_num
  have : Real.sqrt (farthestSq (cast (0, 0, 0)) Q.toPoly Q.toPoly.num) ≤ 5 := by
    refine Real.sqrt_le_iff.2 ⟨by norm_num, by linarith⟩
  norm_num
  linarith

/-- The cell of the origin among the four corners of a regular tetrahedron at distance 3: the construction returns four corners. -/
theorem tetrahedron : ∃ (T : MTree) (l : List CellCorner), CellTree T ∧ T.P.num = 5 ∧ getCell T (fun _ => false) 0 100 1 100 = some (some l) ∧ l.length = 4 ∧
    (∀ z, z < T.P.num → euclid 3 (T.P.pts z) (T.P.pts 0) = 0 ∨ 3 ≤ euclid 3 (T.P.pts z) (T.P.pts 0)) := by
  obtain ⟨st, e, hn, hp, ho, r0, r1, r2, r3, r4, l0, l1, l2, l3, l4⟩ := tree
  have hT : CellTree ⟨⟨st.pts, st.num, 3, realLt⟩, st.links, fun _ => none⟩ := ⟨⟨rfl, by norm_num, BuiltTree.inserted _ _ _ _ _ _ _ e (by simp [seeds])⟩, rfl⟩
  have p0 := hp 0 (by norm_num)
  have p1 := hp 1 (by norm_num)
  have p2 := hp 2 (by norm_num)
  have p3 := hp 3 (by norm_num)
  have p4 := hp 4 (by norm_num)
  simp only [seeds, List.getD_cons_zero, List.getD_cons_succ] at p0 p1 p2 p3 p4
  have hq : sphereQuery Rounding.exact ⟨st.pts, st.num, 3, realLt⟩ st.links (fun _ => true) (inSphereTest (100 * 2)) (st.pts 0) (100 * 2) = some [0, 1, 2, 3, 4] := by
    norm_num [sphereQuery, ho, hn, seedsInSphere, r0, r1, r2, r3, r4, l0, l1, l2, l3, l4, p0, p1, p2, p3, p4, nextDim, inSphereTest, dstSq, Rounding.exact, cast]
  have hmap : List.map st.pts [0, 1, 2, 3, 4] = seeds.map cast := by simp only [List.map_cons, List.map_nil, seeds, p0, p1, p2, p3, p4]
  have hsep : ∀ y ∈ seeds, dotDiff (cast (0, 0, 0)) (cast y) (cast y) = 0 ∨ Real.sqrt (dotDiff (cast (0, 0, 0)) (cast y) (cast y)) = ((3 : ℚ) : ℝ) := by
    have h9 : Real.sqrt 9 = 3 := by rw [show (9 : ℝ) = 3 ^ 2 by norm_num]; exact Real.sqrt_sq (by norm_num)
    intro y hy
    simp only [seeds, List.mem_cons, List.not_mem_nil, or_false] at hy
    rcases hy with rfl | rfl | rfl | rfl | rfl
    · left; norm_num [dotDiff, cast]
    all_goals right; norm_num [dotDiff, cast, h9]
  have hrun := run_good
  cases hr : run with
  | none => rw [hr] at hrun; simp at hrun
  | some o =>
    cases o with
    | none => rw [hr] at hrun; simp at hrun
    | some Q =>
      rw [hr] at hrun
      obtain ⟨g1, g2, g3⟩ := good_spec hrun
      have hl : cellLoop (cast (0, 0, 0)) (seeds.map cast) 100 0 (initPoly (cast (0, 0, 0)) (10 * (100 * 2))) = some (some Q.toPoly) := by
        have := cellLoop_cast hsep 100 0 (initPolyQ (0, 0, 0) 2000)
        rw [← initPoly_cast] at this
        rw [show (10 * (100 * 2) : ℝ) = ((2000 : ℚ) : ℝ) by norm_num, this, show cellLoopQ 3 (0, 0, 0) seeds 100 0 (initPolyQ (0, 0, 0) 2000) = run from rfl, hr]
        rfl
      have hacc : 2 * Real.sqrt (farthestSq (cast (0, 0, 0)) Q.toPoly Q.toPoly.num) < 100 * 2 + 1e-10 := good_accepted g1 g3
      have hwf : Q.toPoly.WF := by
        rcases cellLoop_spec 100 (initPoly_wf (cast (0, 0, 0)) (10 * (100 * 2))) (x := cast (0, 0, 0)) (loc := seeds.map cast) (c := 0) (fun a ha => by omega) with g | ⟨R, g, gw, -⟩
        · rw [hl] at g; simp at g
        · rw [hl] at g
          obtain rfl := Option.some.inj (Option.some.inj g)
          exact gw
      have hwl := cellLoop_walls 100 (initPoly_walls (cast (0, 0, 0)) (10 * (100 * 2)) (seeds.map cast)) hl
      cases hres : resultCorners (fun _ => false) st.pts (cast (0, 0, 0)) [0, 1, 2, 3, 4] Q.toPoly Q.toPoly.num 0 with
      | none =>
        obtain ⟨a, i, b, hi, ha, hb⟩ := resultCorners_none hwf (by rw [hmap]; exact hwl) _ hres
        obtain ⟨v, hv⟩ := Option.ne_none_iff_exists'.1 ha
        obtain ⟨w, hw, -⟩ := Option.map_eq_some_iff.1 hv
        obtain ⟨j, hj⟩ := (g3 a w (g1 ▸ hwf.fin a ha) hw).2 i hi
        rw [show Q.toPoly.wall a i = Q.wall a i from rfl, hj] at hb
        simp at hb
      | some l =>
        refine ⟨_, l, hT, hn, ?_, ?_, ?_⟩
        · unfold getCell
          simp only [hq]
          rw [hmap]
          simp only [p0, hl]
          rw [if_pos hacc, hres]
          rfl
        · have := (resultCorners_get _ hres).2
          rw [Nat.zero_add, show Q.toPoly.rank 0 = 0 from rfl, Nat.zero_add] at this
          rw [← this, show Q.toPoly.num = 27 from g1]
          refine Eq.trans ?_ g2
          unfold Poly.rank
          congr 1
          funext c
          simp [PolyQ.toPoly]
        · intro z hz
          simp only [hn] at hz
          have h9 : Real.sqrt 9 = 3 := by rw [show (9 : ℝ) = 3 ^ 2 by norm_num]; exact Real.sqrt_sq (by norm_num)
          simp only
          interval_cases z
          · left; exact euclid_self 3 _
          all_goals right; norm_num [euclid, euclidSq, Finset.sum_range_succ, p0, p1, p2, p3, p4, cast, h9]

end VoroCrust.CellRun
