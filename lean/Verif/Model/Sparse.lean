import Verif.Model.KdTree
import Mathlib.Data.Real.Sqrt

/-! # Model of the sparse vectors and the Cholesky routines of `MeshingLinearSolver`

A sparse vector is an index array `I` (`I[0]` capacity, `I[1]` number of entries, then the indices) and a value array `V`.
Positions are counted from the first entry, so position `p` here is `I[2 + p]` and `V[p]`.  Reading a cell that was not
written (position `≥ num`) and writing outside the allocation (position `≥ cap`) are undefined: `none`.  The scalar type
and the test for negligible values are parameters where no arithmetic is involved.
-/

namespace VoroCrust

variable {R : Type}

/-- The pair of arrays `(I, V)`. -/
structure SpVec (R : Type) where
  cap : Nat
  num : Nat
  idx : Nat → Nat
  val : Nat → R

/-- `find_entry_position_binary` (MeshingLinearSolver.cpp:743-757). -/
def findPos (v : SpVec R) (row : Nat) : Nat → Nat → Nat → Option Nat
  | 0, _, _ => none
  | fuel + 1, left, right =>
    let p := (left + right) / 2
    if p < v.num then
      if v.idx p = row then some p
      else if left = right then some p
      else if v.idx p < row ∧ p + 1 ≤ right then findPos v row fuel (p + 1) right
      else if row < v.idx p ∧ left + 1 ≤ p then findPos v row fuel left (p - 1)
      else some p
    else none

/-- `for (j = pos; j < last; j++) { I[j] = I[j+1]; V[j-2] = V[j-1]; }` (MeshingLinearSolver.cpp:684-688), `n` steps from `j`. -/
def shiftDown : Nat → Nat → SpVec R → Option (SpVec R)
  | 0, _, v => some v
  | n + 1, j, v =>
    if j + 1 < v.num then shiftDown n (j + 1) { v with idx := upd v.idx j (v.idx (j + 1)), val := upd v.val j (v.val (j + 1)) } else none

/-- `for (j = last; j > pos; j--) { I[j] = I[j-1]; V[j-2] = V[j-3]; }` (MeshingLinearSolver.cpp:717-721), `n` steps from `j`. -/
def shiftUp : Nat → Nat → SpVec R → Option (SpVec R)
  | 0, _, v => some v
  | n + 1, j, v =>
    if j < v.cap then shiftUp n (j - 1) { v with idx := upd v.idx j (v.idx (j - 1)), val := upd v.val j (v.val (j - 1)) } else none

/-- `while (I[pos] > row && pos > 2) pos--;` (MeshingLinearSolver.cpp:713). -/
def backUp (v : SpVec R) (row : Nat) : Nat → Nat
  | 0 => 0
  | p + 1 => if row < v.idx (p + 1) then backUp v row p else p + 1

/-- The reallocation (MeshingLinearSolver.cpp:698-711).  The cells that are not copied are never read. -/
def growVec (v : SpVec R) : SpVec R := if v.num = v.cap then { v with cap := v.cap * 2 } else v

/-- The insertion at the end of `set_sparse_vector_entry` (MeshingLinearSolver.cpp:713-724). -/
def insertAt (v : SpVec R) (row : Nat) (x : R) (pos : Nat) : Option (SpVec R) :=
  let p := backUp v row pos
  let p := if v.idx p < row then p + 1 else p
  match shiftUp (v.num - p) v.num v with
  | none => none
  | some v' => if p < v'.cap then some { v' with num := v'.num + 1, idx := upd v'.idx p row, val := upd v'.val p x } else none

/-- `set_sparse_vector_entry` (MeshingLinearSolver.cpp:654-727).  `small` is `fabs(val) < SPARSE_ENTRY_TOL`; the inner `none` is
the null pointer, the outer one undefined behaviour. -/
def setEntry (small : R → Bool) (row : Nat) (x : R) : Option (SpVec R) → Option (Option (SpVec R))
  | none => if small x then some none else some (some { cap := 10, num := 1, idx := fun _ => row, val := fun _ => x })
  | some v =>
    if v.num = 0 then
      if small x then some (some v)
      else if 0 < v.cap then some (some { v with num := 1, idx := upd v.idx 0 row, val := upd v.val 0 x }) else none
    else
      match findPos v row v.num 0 (v.num - 1) with
      | none => none
      | some pos =>
        if v.idx pos = row then
          if small x then
            match shiftDown (v.num - 1 - pos) pos v with
            | none => none
            | some v' => some (some { v' with num := v'.num - 1 })
          else some (some { v with val := upd v.val pos x })
        else if small x then some (some v)
        else (insertAt (growVec v) row x pos).map some

/-- `get_sparse_vector_entry` (MeshingLinearSolver.cpp:729-741); a null pointer is dereferenced. -/
def getEntry [Zero R] (row : Nat) : Option (SpVec R) → Option R
  | none => none
  | some v =>
    if v.num = 0 then some 0
    else
      match findPos v row v.num 0 (v.num - 1) with
      | none => none
      | some pos => some (if v.idx pos = row then v.val pos else 0)

/-- A history of calls of `set_sparse_vector_entry` on one vector, starting with the null pointer. -/
def setEntries (small : R → Bool) : List (Nat × R) → Option (SpVec R) → Option (Option (SpVec R))
  | [], v => some v
  | (row, x) :: ops, v =>
    match setEntry small row x v with
    | none => none
    | some v' => setEntries small ops v'

/-! ## Dot products -/

section Dot
variable [CommRing R]

/-- One of the two loops of `get_dot_product` (MeshingLinearSolver.cpp:768-777, 781-790): entries `i, i+1, …` of `a` times the
value `look` finds for their index; `n` entries remain. -/
def dotLoop (look : Nat → Option R) (a : SpVec R) (lo hi : Nat) : Nat → Nat → R → Option R
  | 0, _, acc => some acc
  | n + 1, i, acc =>
    if a.idx i < lo then dotLoop look a lo hi n (i + 1) acc
    else if hi < a.idx i then some acc
    else
      match look (a.idx i) with
      | none => none
      | some y => dotLoop look a lo hi n (i + 1) (acc + a.val i * y)

/-- `get_dot_product` of two sparse vectors (MeshingLinearSolver.cpp:759-793). -/
def sparseDot (a b : Option (SpVec R)) (lo hi : Nat) : Option R :=
  match a, b with
  | some a, some b =>
    if a.num < b.num then dotLoop (fun r => getEntry r (some b)) a lo hi a.num 0 0
    else dotLoop (fun r => getEntry r (some a)) b lo hi b.num 0 0
  | _, _ => some 0

/-- `get_dot_product` of a sparse and a dense vector (MeshingLinearSolver.cpp:795-812); a dense cell that was not written is `none`. -/
def denseDot (a : Option (SpVec R)) (y : Nat → Option R) (lo hi : Nat) : Option R :=
  match a with
  | none => some 0
  | some a => dotLoop y a lo hi a.num 0 0

end Dot

/-! ## Cholesky -/

/-- A sparse matrix: one pointer per row. -/
abbrev SpMat (R : Type) := Nat → Option (SpVec R)

section Solver
variable {K : Type} [Field K] [DecidableEq K]

/-- `(b - dot) / diag`; a zero diagonal is no result. -/
def divDiag (b dot diag : K) : Option K := if diag = 0 then none else some ((b - dot) / diag)

/-- The loop `L y = b` of `Cholesky_Solver` (MeshingLinearSolver.cpp:627-634), rows `< n`. -/
def forwardSolve (C : SpMat K) (b : Nat → K) : Nat → Option (Nat → Option K)
  | 0 => some fun _ => none
  | i + 1 =>
    match forwardSolve C b i with
    | none => none
    | some y =>
      match (if 0 < i then denseDot (C i) y 0 (i - 1) else some 0), getEntry i (C i) with
      | some dot, some diag => (divDiag (b i) dot diag).map fun yi => upd y i (some yi)
      | _, _ => none

/-- The loop `LT x = y` (MeshingLinearSolver.cpp:637-647): rows `r, r - 1, …, 0`. -/
def backwardSolve (C : SpMat K) (n : Nat) (y : Nat → Option K) : Nat → (Nat → Option K) → Option (Nat → Option K)
  | r, x =>
    match denseDot (C r) x (r + 1) (n - 1), getEntry r (C r), y r with
    | some dot, some diag, some yr =>
      match divDiag yr dot diag, r with
      | none, _ => none
      | some xr, 0 => some (upd x 0 (some xr))
      | some xr, r' + 1 => backwardSolve C n y r' (upd x (r' + 1) (some xr))
    | _, _, _ => none

/-- `Cholesky_Solver` (MeshingLinearSolver.cpp:622-651); with no rows `num_rows - 1` is the largest `size_t`. -/
def choleskySolve (C : SpMat K) (n : Nat) (b : Nat → K) : Option (Nat → Option K) :=
  if n = 0 then none
  else
    match forwardSolve C b n with
    | none => none
    | some y => backwardSolve C n y (n - 1) fun _ => none

end Solver

section Factor
open Classical

/-- `fabs(val) < SPARSE_ENTRY_TOL` (MeshingLinearSolver.cpp:40). -/
noncomputable def tiny (x : ℝ) : Bool := decide (|x| < 1e-12)

/-- `AJ[irow], AV[irow]` replaced. -/
noncomputable def setMat (C : SpMat ℝ) (row col : Nat) (x : ℝ) : Option (SpMat ℝ) :=
  (setEntry tiny col x (C row)).map fun v => upd C row v

/-- The inner loop of `Cholesky_factorization` (MeshingLinearSolver.cpp:231-240): `n` rows from `j`, column `i`. -/
noncomputable def cholColumn (i : Nat) (lii : ℝ) : Nat → Nat → SpMat ℝ → Option (SpMat ℝ)
  | 0, _, A => some A
  | n + 1, j, A =>
    match (if 0 < i then sparseDot (A i) (A j) 0 (i - 1) else some 0), getEntry i (A j) with
    | some dot, some aji =>
      match setMat A j i ((aji - dot) / lii) with
      | none => none
      | some A' => cholColumn i lii n (j + 1) A'
    | _, _ => none

/-- The first loop of `Cholesky_factorization` (MeshingLinearSolver.cpp:217-241): rows `< i` of `n`.  `some none`: the function returned
`false`. -/
noncomputable def cholRows (n : Nat) : Nat → SpMat ℝ → Option (Option (SpMat ℝ))
  | 0, A => some (some A)
  | i + 1, A =>
    match cholRows n i A with
    | none => none
    | some none => some none
    | some (some A) =>
      match (if 0 < i then sparseDot (A i) (A i) 0 (i - 1) else some 0), getEntry i (A i) with
      | some dot, some aii =>
        if aii - dot < 1e-10 then some none
        else
          match setMat A i i (Real.sqrt (aii - dot)) with
          | none => none
          | some A' => (cholColumn i (Real.sqrt (aii - dot)) (n - (i + 1)) (i + 1) A').map some
      | _, _ => none

/-- The inner `while` of the second loop (MeshingLinearSolver.cpp:251-257); `nnz` counts down. -/
noncomputable def dropWhileAbove (row i : Nat) : Nat → SpVec ℝ → Nat × SpVec ℝ
  | 0, v => (0, v)
  | nnz + 1, v =>
    if row < v.idx i ∧ i < nnz + 1 then dropWhileAbove row i nnz { v with idx := upd v.idx i (v.idx nnz), val := upd v.val i (v.val nnz) }
    else (nnz + 1, v)

/-- The loop over the entries of one row that removes the ones above the diagonal (MeshingLinearSolver.cpp:246-259); `i` counts
up to `nnz`, `fuel` bounds the iterations. -/
noncomputable def dropAbove (row : Nat) : Nat → Nat → Nat → SpVec ℝ → SpVec ℝ
  | 0, _, nnz, v => { v with num := nnz }
  | fuel + 1, i, nnz, v =>
    if i < nnz then
      let q := dropWhileAbove row i nnz v
      dropAbove row fuel (i + 1) q.1 q.2
    else { v with num := nnz }

/-- The second loop of `Cholesky_factorization` (MeshingLinearSolver.cpp:244-260), rows `< n`. -/
noncomputable def lowerPart (A : SpMat ℝ) : Nat → Option (SpMat ℝ)
  | 0 => some A
  | i + 1 =>
    match lowerPart A i with
    | none => none
    | some B =>
      match B i with
      | none => none
      | some v => some (upd B i (some (dropAbove i v.num 0 v.num v)))

/-- The loop over the entries of row `row` that mirrors them (MeshingLinearSolver.cpp:266-274): `n` entries from `i`.  Row `row` is not
changed by it because only rows `col < row` are written. -/
noncomputable def mirrorRow (row : Nat) (v : SpVec ℝ) : Nat → Nat → SpMat ℝ → Option (SpMat ℝ)
  | 0, _, A => some A
  | n + 1, i, A =>
    if v.idx i < row then
      match setMat A (v.idx i) row (v.val i) with
      | none => none
      | some A' => mirrorRow row v n (i + 1) A'
    else mirrorRow row v n (i + 1) A

/-- The third loop of `Cholesky_factorization` (MeshingLinearSolver.cpp:263-275): rows `1, …, i - 1`. -/
noncomputable def mirrorRows (A : SpMat ℝ) : Nat → Option (SpMat ℝ)
  | 0 => some A
  | i + 1 =>
    match mirrorRows A i with
    | none => none
    | some B =>
      if i = 0 then some B
      else
        match B i with
        | none => none
        | some v => mirrorRow i v v.num 0 B

/-- `Cholesky_factorization` (MeshingLinearSolver.cpp:214-276). -/
noncomputable def choleskyFactor (n : Nat) (A : SpMat ℝ) : Option (Option (SpMat ℝ)) :=
  match cholRows n n A with
  | none => none
  | some none => some none
  | some (some A) =>
    match lowerPart A n with
    | none => none
    | some B => (mirrorRows B n).map some

/-! ## Adding a row to a factorisation -/

/-- The sum over the entries of `s12` (MeshingLinearSolver.cpp:536-545): `n` entries from `j`, row `i`. -/
noncomputable def rowSum (row : Option (SpVec ℝ)) (i : Nat) (s : SpVec ℝ) : Nat → Nat → ℝ → Option ℝ
  | 0, _, acc => some acc
  | n + 1, j, acc =>
    if s.idx j < i then
      match getEntry (s.idx j) row with
      | none => none
      | some x => rowSum row i s n (j + 1) (acc + x * s.val j)
    else rowSum row i s n (j + 1) acc

/-- `sum` (MeshingLinearSolver.cpp:532-546). -/
noncomputable def ptrSum (row : Option (SpVec ℝ)) (i : Nat) : Option (SpVec ℝ) → Option ℝ
  | none => some 0
  | some v => rowSum row i v v.num 0 0

/-- `L11 s12 = a12` (MeshingLinearSolver.cpp:529-555), rows `< i`. -/
noncomputable def addSolve (C : SpMat ℝ) (a : Option (SpVec ℝ)) : Nat → Option (Option (SpVec ℝ))
  | 0 => some none
  | i + 1 =>
    match addSolve C a i with
    | none => none
    | some s =>
      match ptrSum (C i) i s, getEntry i a, getEntry i (C i) with
      | some sum, some b, some diag =>
        match divDiag b sum diag with
        | none => none
        | some q => setEntry tiny i q s
      | _, _, _ => none

/-- The loop over the entries of `s12` (MeshingLinearSolver.cpp:561-564): `n` entries from `j`. -/
def sqSum (s : SpVec ℝ) : Nat → Nat → ℝ → ℝ
  | 0, _, acc => acc
  | n + 1, j, acc => sqSum s n (j + 1) (acc + s.val j * s.val j)

/-- `dot` (MeshingLinearSolver.cpp:557-565). -/
def ptrSq : Option (SpVec ℝ) → ℝ
  | none => 0
  | some v => sqSum v v.num 0 0

/-- The loop that writes `s12` into the last column and the last row (MeshingLinearSolver.cpp:594-604): `cnt` entries from `j`. -/
noncomputable def borderEntries (n : Nat) (s : SpVec ℝ) : Nat → Nat → SpMat ℝ → Option (SpMat ℝ)
  | 0, _, C => some C
  | cnt + 1, j, C =>
    match setMat C (s.idx j) n (s.val j) with
    | none => none
    | some C1 =>
      match setMat C1 n (s.idx j) (s.val j) with
      | none => none
      | some C2 => borderEntries n s cnt (j + 1) C2

/-- "adding s12" (MeshingLinearSolver.cpp:593-604). -/
noncomputable def borderPtr (n : Nat) (C : SpMat ℝ) : Option (SpVec ℝ) → Option (SpMat ℝ)
  | none => some C
  | some v => borderEntries n v v.num 0 C

/-- `Cholesky_factorization_add_row` (MeshingLinearSolver.cpp:525-620) for `n` rows; `some none` is the return value `false`, which leaves
everything as it was. -/
noncomputable def addRow (n : Nat) (C : SpMat ℝ) (a : Option (SpVec ℝ)) : Option (Option (SpMat ℝ)) :=
  match addSolve C a n, getEntry n a with
  | some s, some ann =>
    if ann - ptrSq s < 1e-10 then some none
    else
      match borderPtr n (upd C n none) s with
      | none => none
      | some C1 => (setMat C1 n n (Real.sqrt (ann - ptrSq s))).map some
  | _, _ => none

end Factor

end VoroCrust
