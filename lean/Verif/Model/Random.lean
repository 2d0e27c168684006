import Verif.Model.Memory
import Verif.Model.KdQuery
import Mathlib.Analysis.SpecialFunctions.Trigonometric.Basic
import Mathlib.Analysis.SpecialFunctions.Log.Basic

/-!
# Model of `MeshingRandomSampler` and of the table look-ups of the sampler

`ρ` is the rounding of `double` arithmetic; every operation of the generator is followed by it.
-/

namespace VoroCrust

open Classical

/-! ## The generator -/

/-- State of a `MeshingRandomSampler` (MeshingRandomSampler.h). -/
structure Rng where
  Q : Nat → ℝ
  indx : Nat
  c : ℝ
  zc : ℝ
  zx : ℝ
  zy : ℝ

/-- `cc` (MeshingRandomSampler.cpp:81). -/
noncomputable def rngUnit (ρ : ℝ → ℝ) : ℝ := ρ (1 / 9007199254740992)

/-- One step of the two bit sources of the seeding, `unsigned long` of `w` bits (MeshingRandomSampler.cpp:104-107). -/
def seedStep (w : Nat) (s : Nat × Nat) : Nat × Nat :=
  let x := (69069 * s.1 + 123) % 2 ^ w
  let y := s.2 ^^^ ((s.2 <<< 13) % 2 ^ w)
  let y := y ^^^ (y >>> 17)
  (x, y ^^^ ((y <<< 5) % 2 ^ w))

/-- The loop over the 52 bits of one entry (MeshingRandomSampler.cpp:101-109): sources, `s`, `t`. -/
noncomputable def seedEntry (ρ : ℝ → ℝ) (w : Nat) : Nat → Nat × Nat → ℝ → ℝ → (Nat × Nat) × ℝ
  | 0, q, s, _ => (q, s)
  | j + 1, q, s, t =>
    seedEntry ρ w j (seedStep w q)
      (if ((((seedStep w q).1 + (seedStep w q).2) % 2 ^ w) >>> 23) % 2 = 1 then ρ (s + ρ (0.5 * t)) else s) (ρ (0.5 * t))

/-- The loop over the entries (MeshingRandomSampler.cpp:97-111); `i` counts up to `qlen`. -/
noncomputable def seedTable (ρ : ℝ → ℝ) (w : Nat) : Nat → Nat → Nat × Nat → (Nat → ℝ) → (Nat → ℝ)
  | 0, _, _, Q => Q
  | n + 1, i, q, Q => seedTable ρ w n (i + 1) (seedEntry ρ w 52 q 0 1).1 (upd Q i (seedEntry ρ w 52 q 0 1).2)

/-- `initiate_random_number_generator` (MeshingRandomSampler.cpp:76-113). -/
noncomputable def rngInit (ρ : ℝ → ℝ) (w : Nat) (seed : Nat) : Rng :=
  { Q := seedTable ρ w 1220 0 (if seed = 0 then 123456789 else seed, 362436069) (fun _ => 0)
    indx := 1220
    c := 0
    zc := 0
    zx := ρ (5212886298506819 / 9007199254740992)
    zy := ρ (2020898595989513 / 9007199254740992) }

/-- One element of the refill loop (MeshingRandomSampler.cpp:140-153): new entry and new carry. -/
noncomputable def refillStep (ρ : ℝ → ℝ) (qj qi c : ℝ) : ℝ × ℝ :=
  if ρ (ρ (qj - qi) + c) > 0 then (ρ (ρ (ρ (qj - qi) + c) - rngUnit ρ), rngUnit ρ)
  else (ρ (ρ (ρ (ρ (qj - qi) + c) - rngUnit ρ) + 1), 0)

/-- The refill loop (MeshingRandomSampler.cpp:138-154), `i` from `1220 - n`; every access is bounds checked. -/
noncomputable def refill (ρ : ℝ → ℝ) : Nat → Nat → (Nat → ℝ) → ℝ → Option ((Nat → ℝ) × ℝ)
  | 0, _, Q, c => some (Q, c)
  | n + 1, i, Q, c =>
    let j := if i < 30 then i + 1190 else i - 30
    if j < 1220 ∧ i < 1220 then refill ρ n (i + 1) (upd Q i (refillStep ρ (Q j) (Q i) c).1) (refillStep ρ (Q j) (Q i) c).2
    else none

/-- The subtract-with-borrow part (MeshingRandomSampler.cpp:121-133): new `zy` and `zc`. -/
noncomputable def borrowStep (ρ : ℝ → ℝ) (zx zy zc : ℝ) : ℝ × ℝ :=
  if ρ (ρ (zx - zy) - zc) < 0 then (ρ (ρ (ρ (zx - zy) - zc) + 1), rngUnit ρ) else (ρ (ρ (zx - zy) - zc), 0)

/-- The returned number (MeshingRandomSampler.cpp:159). -/
noncomputable def combine (ρ : ℝ → ℝ) (t zy : ℝ) : ℝ := if t < zy then ρ (1 + ρ (t - zy)) else ρ (t - zy)

/-- `generate_uniform_random_number` (MeshingRandomSampler.cpp:115-161). -/
noncomputable def rngNext (ρ : ℝ → ℝ) (g : Rng) : Option (ℝ × Rng) :=
  let z := borrowStep ρ g.zx g.zy g.zc
  if g.indx < 1220 then
    some (combine ρ (g.Q g.indx) z.1, { g with indx := g.indx + 1, zx := g.zy, zy := z.1, zc := z.2 })
  else
    match refill ρ 1220 0 g.Q g.c with
    | none => none
    | some (Q, c) => some (combine ρ (Q 0) z.1, { Q := Q, indx := 1, c := c, zx := g.zy, zy := z.1, zc := z.2 })

/-- `n` draws in a row. -/
noncomputable def rngDraws (ρ : ℝ → ℝ) : Nat → Rng → Option (List ℝ)
  | 0, _ => some []
  | n + 1, g =>
    match rngNext ρ g with
    | none => none
    | some (u, g') =>
      match rngDraws ρ n g' with
      | none => none
      | some us => some (u :: us)

/-! ## Samples -/

/-- `sample_uniformly_from_box` (MeshingRandomSampler.cpp:163-173), exact reals; `us` are the numbers drawn. -/
def sampleBox (xmin xmax : Nat → ℝ) (us : Nat → ℝ) : Nat → ℝ := fun d => xmin d + us d * (xmax d - xmin d)

/-- `v[0] * x[0] + v[1] * x[1] + ...` accumulated in a loop. -/
def addUp (f : Nat → ℝ) : Nat → ℝ
  | 0 => 0
  | n + 1 => addUp f n + f n

/-- The array `u` of `sample_uniformly_from_simplex` before sorting (MeshingRandomSampler.cpp:204-210). -/
noncomputable def simplexCuts (n : Nat) (us : Nat → ℝ) : Nat → ℝ := fun i => if i = n then 1 else if i = 0 then 0 else us i

/-- `sample_uniformly_from_simplex` (MeshingRandomSampler.cpp:201-231), exact reals; `us k` is the number drawn for `u[k]`. -/
noncomputable def sampleSimplex (n : Nat) (x : Nat → Nat → ℝ) (us : Nat → ℝ) : Option (Nat → ℝ) :=
  match quicksort1 realLt (n + 1) (simplexCuts n us) 0 n with
  | none => none
  | some u => some fun d => addUp (fun ic => (u (ic + 1) - u ic) * x ic d) n

/-- The coordinate loop of `sample_uniformly_from_unit_sphere` (MeshingRandomSampler.cpp:179-191), for `n` coordinates still to
fill; `τ` is `2 * PI`, `us` the numbers drawn.  `log 0` gives an infinity, which the later product turns into NaN: no result. -/
noncomputable def sphereCoords (τ : ℝ) : Nat → List ℝ → Option (List ℝ)
  | 0, _ => some []
  | 1, u1 :: u2 :: _ => if u1 = 0 then none else some [Real.sqrt (-2 * Real.log u1) * Real.cos (τ * u2)]
  | n + 2, u1 :: u2 :: us =>
    if u1 = 0 then none
    else
      match sphereCoords τ n us with
      | none => none
      | some l => some (Real.sqrt (-2 * Real.log u1) * Real.cos (τ * u2) :: Real.sqrt (-2 * Real.log u1) * Real.sin (τ * u2) :: l)
  | _, _ => none

/-- `sample_uniformly_from_unit_sphere` (MeshingRandomSampler.cpp:176-198).  Zero dimensions never leave the loop; a zero
norm gives NaN. -/
noncomputable def sampleSphere (τ : ℝ) (n : Nat) (us : List ℝ) : Option (List ℝ) :=
  if n = 0 then none
  else
    match sphereCoords τ n us with
    | none => none
    | some l => if (l.map fun a => a * a).sum = 0 then none else some (l.map fun a => a * (1 / Real.sqrt (l.map fun a => a * a).sum))

/-! ## Tables -/

/-- The binary search of `sample_uniformly_from_discrete_cdf` (MeshingRandomSampler.cpp:248-262); `none`: out of range or fuel. -/
noncomputable def cdfSearch (cdf : Nat → ℝ) (n : Nat) (u : ℝ) : Nat → Nat → Nat → Option Nat
  | 0, _, _ => none
  | fuel + 1, ist, iend =>
    let imid := (ist + iend) / 2
    if imid < n then
      if (if imid > 0 then cdf (imid - 1) else 0) ≤ u ∧ u ≤ cdf imid then some imid
      else if u < (if imid > 0 then cdf (imid - 1) else 0) then cdfSearch cdf n u fuel ist imid
      else cdfSearch cdf n u fuel (imid + 1) iend
    else none

/-- `sample_uniformly_from_discrete_cdf` (MeshingRandomSampler.cpp:233-266), exact reals; `v` is the number drawn. -/
noncomputable def discreteCdf (cdf : Nat → ℝ) (n : Nat) (v : ℝ) (fuel : Nat) : Option Nat :=
  if n = 0 then none
  else if cdf (n - 1) = 0 then some (if ⌊(n : ℝ) * v⌋₊ = n then ⌊(n : ℝ) * v⌋₊ - 1 else ⌊(n : ℝ) * v⌋₊)
  else cdfSearch cdf n (v * cdf (n - 1)) fuel 0 (n - 1)

/-- The binary search of the sampler (MeshingVoroCrustSampler.cpp:197-213, 435-451, 497-513, 642-658, 2437-2453,
2896-2912) for any type of entries and any two comparisons (`gt i` is `cdf[i] > u`, `lt i` is `cdf[i] < u`).  With no
entries `iend` is `SIZE_MAX`: out of range. -/
def tableSearch (n : Nat) (gt lt : Nat → Bool) : Nat → Nat → Nat → Option Nat
  | 0, _, _ => none
  | fuel + 1, ist, iend =>
    if iend > ist then
      let imid := (ist + iend) / 2
      if imid < n then
        if gt imid then tableSearch n gt lt fuel ist imid
        else if lt imid then tableSearch n gt lt fuel (imid + 1) iend
        else tableSearch n gt lt fuel imid imid
      else none
    else some ist

/-- The look-up of a number in a table of `n` entries. -/
def tablePick (n : Nat) (gt lt : Nat → Bool) (fuel : Nat) : Option Nat :=
  if n = 0 then none else tableSearch n gt lt fuel 0 (n - 1)

/-- `for (i = 1..) cdf[i] += cdf[i - 1]` (MeshingVoroCrustSampler.cpp:186, 427, 490, 633, 2377, 2410, 2618,
2853), for `n` entries from index `i`. -/
def cumulate : Nat → Nat → (Nat → ℝ) → (Nat → ℝ)
  | 0, _, a => a
  | n + 1, i, a => cumulate n (i + 1) (upd a i (a i + a (i - 1)))

/-- `for (i = 0..) cdf[i] /= cdf[last]`, in this order (MeshingVoroCrustSampler.cpp:187, 428, 491, 634, 2378, 2411, 2619,
2854). -/
noncomputable def normaliseTable (last : Nat) : Nat → Nat → (Nat → ℝ) → (Nat → ℝ)
  | 0, _, a => a
  | n + 1, i, a => normaliseTable last n (i + 1) (upd a i (a i / a last))

/-- The table built from `n` weights. -/
noncomputable def weightTable (n : Nat) (w : Nat → ℝ) : Nat → ℝ := normaliseTable (n - 1) n 0 (cumulate (n - 1) 1 w)

end VoroCrust
