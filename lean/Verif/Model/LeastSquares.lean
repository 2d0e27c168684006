import Mathlib.Analysis.SpecialFunctions.Pow.NNReal
import Mathlib.Data.Option.NAry
import Mathlib.Algebra.BigOperators.Group.Finset.Basic

/-! # Model of `MeshingLinearSolver::LS_QR_Solver` and `householder`, and of `MeshingSmartTree::get_Voronoi_vertex`

Exact arithmetic, with the value that is not a number: `none` stands for it, as the result of a division by zero (here always of zero by zero) and of everything computed from it;
comparisons with it fail.  Around it, `none` is undefined behaviour.  Arrays are functions; `A` has `nrow` rows of `ncol` entries, `b` has `nrow` entries and `x` has `ncol`.
-/

namespace VoroCrust

open Classical

/-- A number, or not a number. -/
abbrev Dbl := Option ℝ

/-- Sum, difference and product. -/
def dadd (a b : Dbl) : Dbl := Option.map₂ (· + ·) a b

def dsub (a b : Dbl) : Dbl := Option.map₂ (· - ·) a b

def dmul (a b : Dbl) : Dbl := Option.map₂ (· * ·) a b

/-- Quotient. -/
noncomputable def ddiv (a b : Dbl) : Dbl :=
  match a, b with
  | some a, some b => if b = 0 then none else some (a / b)
  | _, _ => none

/-- Square root of a sum of squares. -/
noncomputable def dsqrt (a : Dbl) : Dbl := a.map Real.sqrt

/-- `a > t`. -/
def dgt (a : Dbl) (t : ℝ) : Prop := ∃ v, a = some v ∧ t < v

/-- `sum += f(k)`, …, `sum += f(k + m - 1)`. -/
def dsum (f : Nat → Dbl) (k : Nat) : Nat → Dbl
  | 0 => some 0
  | m + 1 => dadd (dsum f k m) (f (k + m))

/-- The arrays `Q` and `R`. -/
structure QrState where
  Q : Nat → Nat → Dbl
  R : Nat → Nat → Dbl

/-- `R = A`, `Q = I` (MeshingLinearSolver.cpp:110-115). -/
def qrStart (A : Nat → Nat → ℝ) : QrState := ⟨fun i j => some (if i = j then 1 else 0), fun i j => some (A i j)⟩

/-- `alpha` with its sign (MeshingLinearSolver.cpp:122-129). -/
noncomputable def hhAlpha (n k : Nat) (R : Nat → Nat → Dbl) : Dbl :=
  let a := dsqrt (dsum (fun i => dmul (R i k) (R i k)) k (n - k))
  if dgt (R k k) 0 then a.map fun v => -v else a

/-- `x` before it is scaled (MeshingLinearSolver.cpp:125, 130). -/
noncomputable def hhVec (n k : Nat) (R : Nat → Nat → Dbl) (i : Nat) : Dbl := if i = k then dsub (R k k) (hhAlpha n k R) else R i k

/-- The unit vector `x` (MeshingLinearSolver.cpp:132-135). -/
noncomputable def hhUnit (n k : Nat) (R : Nat → Nat → Dbl) (i : Nat) : Dbl :=
  ddiv (hhVec n k R i) (dsqrt (dsum (fun i => dmul (hhVec n k R i) (hhVec n k R i)) k (n - k)))

/-- One iteration of the loop (MeshingLinearSolver.cpp:120-174). -/
noncomputable def hhStep (n m k : Nat) (s : QrState) : QrState where
  Q i j := if k ≤ i ∧ i < n ∧ j < n then
      dadd (s.Q i j) (dmul (dmul (some (-2)) (hhUnit n k s.R i)) (dsum (fun l => dmul (hhUnit n k s.R l) (s.Q l j)) k (n - k)))
    else s.Q i j
  R i j := if k ≤ i ∧ i < n ∧ k ≤ j ∧ j < m then
      dsub (s.R i j) (dmul (dmul (some 2) (hhUnit n k s.R i)) (dsum (fun l => dmul (hhUnit n k s.R l) (s.R l j)) k (n - k)))
    else s.R i j

/-- The first `k` iterations. -/
noncomputable def hhSteps (A : Nat → Nat → ℝ) (n m : Nat) : Nat → QrState
  | 0 => qrStart A
  | k + 1 => hhStep n m k (hhSteps A n m k)

/-- `householder` (MeshingLinearSolver.cpp:101-213); `none` is the return value 1, which leaves `Q` and `R` unwritten. -/
noncomputable def householder (n m : Nat) (A : Nat → Nat → ℝ) : Option QrState :=
  if m > n then none else some ⟨fun i j => (hhSteps A n m m).Q j i, (hhSteps A n m m).R⟩

/-- `bmod` (MeshingLinearSolver.cpp:62-67). -/
def bMod (n : Nat) (Q : Nat → Nat → Dbl) (b : Nat → ℝ) (i : Nat) : Dbl := dsum (fun l => dmul (Q l i) (some (b l))) 0 n

/-- The sum over `jcol = ncol - 1, …, jrow + 1` (MeshingLinearSolver.cpp:75-76). -/
def backSum (R : Nat → Nat → Dbl) (x : Nat → Dbl) (i m : Nat) : Nat → Dbl
  | 0 => some 0
  | c + 1 => dadd (backSum R x i m c) (dmul (R i (m - 1 - c)) (x (m - 1 - c)))

/-- The entry computed for row `i` (MeshingLinearSolver.cpp:73-83). -/
noncomputable def backEntry (m : Nat) (R : Nat → Nat → Dbl) (bm : Nat → Dbl) (x : Nat → Dbl) (i : Nat) : Dbl :=
  if dgt ((R i i).map abs) 1e-10 then ddiv (dsub (bm i) (backSum R x i m (m - 1 - i))) (R i i) else some 0

/-- The backward substitution after `c` iterations, rows `m - 1`, `m - 2`, … (MeshingLinearSolver.cpp:69-88); the entries of `x` not yet written have their old values. -/
noncomputable def backSolve (m : Nat) (R : Nat → Nat → Dbl) (bm : Nat → Dbl) (x0 : Nat → Dbl) : Nat → Nat → Dbl
  | 0 => x0
  | c + 1 => fun j => if j = m - 1 - c then backEntry m R bm (backSolve m R bm x0 c) (m - 1 - c) else backSolve m R bm x0 c j

/-- `LS_QR_Solver` (MeshingLinearSolver.cpp:52-99).  With more columns than rows the unwritten arrays are read; without columns `ncol - 1` wraps around. -/
noncomputable def lsSolve (n m : Nat) (A : Nat → Nat → ℝ) (b : Nat → ℝ) (x0 : Nat → Dbl) : Option (Nat → Dbl) :=
  match householder n m A with
  | none => none
  | some s => if m = 0 then none else some (backSolve m s.R (bMod n s.Q b) x0 m)

/-! ## `MeshingSmartTree::get_Voronoi_vertex` -/

/-- The matrix (MeshingSmartTree.cpp:1933-1938): row `i` is the difference of seed `i + 1` and seed `0`. -/
def vertexMatrix (pts : Nat → Nat → ℝ) (seeds : Nat → Nat) (i j : Nat) : ℝ := pts (seeds (i + 1)) j - pts (seeds 0) j

/-- The right side (MeshingSmartTree.cpp:1940-1945), for `d` dimensions. -/
noncomputable def vertexRhs (d : Nat) (pts : Nat → Nat → ℝ) (seeds : Nat → Nat) (i : Nat) : ℝ :=
  ∑ j ∈ Finset.range d, vertexMatrix pts seeds i j * (1 / 2 * (pts (seeds (i + 1)) j + pts (seeds 0) j))

/-- `get_Voronoi_vertex` (MeshingSmartTree.cpp:1925-1953) for a tree with `np` points of dimension `d` and `num` seeds: the value returned and the array `vertex`, which had the values `x0`.
The array `seeds` has `num` entries. -/
noncomputable def voronoiVertex (d np : Nat) (pts : Nat → Nat → ℝ) (num : Nat) (seeds : Nat → Nat) (x0 : Nat → Dbl) : Option (Bool × (Nat → Dbl)) :=
  if num ≠ d + 1 then some (false, x0)
  else if ∀ i, i < num → seeds i < np then (lsSolve d d (vertexMatrix pts seeds) (vertexRhs d pts seeds) x0).map fun x => (true, x)
  else none

end VoroCrust
