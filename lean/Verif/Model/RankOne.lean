import Verif.Model.Sparse
import Mathlib.Algebra.BigOperators.Group.Finset.Basic

/-!
# Model of the update of a Cholesky factor and of the removal of a row (`Cholesky_factorization_rank_one_update` and `Cholesky_factorization_remove_row`, MeshingLinearSolver.cpp:278-357, 358-524)

The matrix that is stored is the factor together with its transpose.  A row is given here by the entry on the diagonal, the list of the entries after the diagonal in the order of their indices, and the entries before it, which are
only written, as a function.  Setting an entry of a sorted list (`set_sparse_vector_entry`, C45) keeps the list sorted, so the positions `pos` and `xpos` are places in lists.  Exact arithmetic; `small` is the test
`fabs(val) < SPARSE_ENTRY_TOL` for the values that are not stored.  `none` is undefined behaviour, a division by zero, or fuel used up.
-/

namespace VoroCrust

/-- The matrix. -/
structure FactorState where
  diag : Nat → ℝ
  up : Nat → List (Nat × ℝ)
  low : Nat → Nat → ℝ

/-- The entry of an index in a list. -/
noncomputable def entryOf : List (Nat × ℝ) → Nat → ℝ
  | [], _ => 0
  | (j, v) :: l, k => if j = k then v else entryOf l k

/-- A value that is stored or not. -/
noncomputable def keepEntry (small : ℝ → Bool) (j : Nat) (v : ℝ) (l : List (Nat × ℝ)) : List (Nat × ℝ) := if small v then l else (j, v) :: l

/-- The loop over the entries of the row and of the vector after the diagonal (MeshingLinearSolver.cpp:310-351): the row from `pos` on, the vector from `xpos` on, and the values written to the rows below, which are those of the row
with the small ones. -/
noncomputable def mergeRow (small : ℝ → Bool) (c s : ℝ) : List (Nat × ℝ) → List (Nat × ℝ) → List (Nat × ℝ) × List (Nat × ℝ) × List (Nat × ℝ)
  | [], [] => ([], [], [])
  | [], (m, x) :: xs =>
    let l' := (0 + s * x) / c
    let t := mergeRow small c s [] xs
    (keepEntry small m l' t.1, (m, c * x - s * l') :: t.2.1, (m, l') :: t.2.2)
  | (j, l) :: cs, [] =>
    let l' := l / c
    let t := mergeRow small c s cs []
    (keepEntry small j l' t.1, keepEntry small j (-s * l') t.2.1, (j, l') :: t.2.2)
  | (j, l) :: cs, (m, x) :: xs =>
    if m ≤ j then
      let l' := ((if j = m then l else 0) + s * x) / c
      let t := mergeRow small c s (if j = m then cs else (j, l) :: cs) xs
      (keepEntry small m l' t.1, (m, c * x - s * l') :: t.2.1, (m, l') :: t.2.2)
    else
      let l' := l / c
      let t := mergeRow small c s cs ((m, x) :: xs)
      (keepEntry small j l' t.1, keepEntry small j (-s * l') t.2.1, (j, l') :: t.2.2)
  termination_by cs xs => cs.length + xs.length
  decreasing_by
    all_goals first
      | (simp only [List.length_cons, List.length_nil]; omega)
      | (split <;> simp only [List.length_cons, List.length_nil] <;> omega)

/-- The values written to the rows below (MeshingLinearSolver.cpp:319, 330). -/
noncomputable def writeBelow (small : ℝ → Bool) (i : Nat) : List (Nat × ℝ) → (Nat → Nat → ℝ) → Nat → Nat → ℝ
  | [], low => low
  | (m, v) :: ws, low => writeBelow small i ws fun a b => if a = m ∧ b = i then (if small v then 0 else v) else low a b

/-- One entry of the vector (MeshingLinearSolver.cpp:286-353): the matrix and the rest of the vector. -/
noncomputable def rankStep (small : ℝ → Bool) (n : Nat) (S : FactorState) (i : Nat) (xi : ℝ) (xs : List (Nat × ℝ)) : Option (FactorState × List (Nat × ℝ)) :=
  if i < n then
    if S.diag i = 0 then none
    else
      let r := Real.sqrt (S.diag i * S.diag i + xi * xi)
      let t := mergeRow small (r / S.diag i) (xi / S.diag i) (S.up i) xs
      if r / S.diag i = 0 then none
      else
        some ({ diag := fun k => if k = i then (if small r then 0 else r) else S.diag k
                up := fun k => if k = i then t.1 else S.up k
                low := writeBelow small i t.2.2 S.low }, t.2.1)
  else none

/-- `Cholesky_factorization_rank_one_update` (MeshingLinearSolver.cpp:278-357). -/
noncomputable def rankOne (small : ℝ → Bool) (n : Nat) : Nat → FactorState → List (Nat × ℝ) → Option FactorState
  | _, S, [] => some S
  | 0, _, _ :: _ => none
  | fuel + 1, S, (i, xi) :: xs =>
    match rankStep small n S i xi xs with
    | none => none
    | some (S', xs') => rankOne small n fuel S' xs'

/-- The part of the matrix after the row that is removed, `S33` (MeshingLinearSolver.cpp:433-462). -/
def lowerCorner (k : Nat) (S : FactorState) : FactorState where
  diag := fun i => S.diag (i + k + 1)
  up := fun i => (S.up (i + k + 1)).map fun e => (e.1 - k - 1, e.2)
  low := fun i j => S.low (i + k + 1) (j + k + 1)

/-- The entries of a row before the one that is removed: `S11` and `S13` put together again (MeshingLinearSolver.cpp:400-417, 470-492). -/
noncomputable def skipEntries (k : Nat) (l : List (Nat × ℝ)) : List (Nat × ℝ) := (l.filter fun e => decide (e.1 ≠ k)).map fun e => (if e.1 < k then e.1 else e.1 - 1, e.2)

/-- `Cholesky_factorization_remove_row` (MeshingLinearSolver.cpp:358-524).  For the last row (362-385) there is no part after it. -/
noncomputable def removeFactorRow (small : ℝ → Bool) (n k : Nat) (S : FactorState) : Option FactorState :=
  if k + 1 = n then
    some { diag := S.diag, up := fun i => (S.up i).filter fun e => decide (e.1 < k), low := S.low }
  else if k < n then
    match rankOne small (n - k - 1) (n - k - 1) (lowerCorner k S) ((S.up k).map fun e => (e.1 - k - 1, e.2)) with
    | none => none
    | some T =>
      some { diag := fun i => if i < k then S.diag i else T.diag (i - k)
             up := fun i => if i < k then skipEntries k (S.up i) else (T.up (i - k)).map fun e => (e.1 + k, e.2)
             low := fun i j => if i < k then S.low i j else if j < k then S.low (i + 1) j else T.low (i - k) (j - k) }
  else none

/-- `while (CJ[irow][pos] <= irow && pos < 2 + nnz) pos++` (MeshingLinearSolver.cpp:302): the index is read before the position is tested, at places counted from the first entry.  The cells of the array after the last entry that
is stored have any value, `junk`; past the end of the array there is none. -/
def scanPast (v : SpVec ℝ) (junk : Nat → Nat) (row : Nat) : Nat → Nat → Option Nat
  | 0, _ => none
  | fuel + 1, p =>
    if p < v.cap then
      if (if p < v.num then v.idx p else junk p) ≤ row ∧ p < v.num then scanPast v junk row fuel (p + 1) else some p
    else none

end VoroCrust
