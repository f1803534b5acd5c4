import Mathlib.Algebra.Ring.Basic
import Mathlib.Order.Defs.LinearOrder

/-!
# Model of sparse rows, vectors and matrices

Models `/repo/Source/Headers/inmost_sparse.h` L159-320 (class `Row`), the same members of
`HessianRow` (L330-430) and `/repo/Source/Solver/sparse.cpp` L342-405, L583-653 (`RowVec`, `isSorted`,
`MergeSortedRows`), L932-990 (`MatVec`, `MatVecTranspose`), L737-748 and L1087-1098 (default intervals
of `Load`).

`Row` and `HessianRow` share their code up to the type of the index (a column, or a pair of
columns ordered lexicographically); the definitions are given for any linearly ordered index
type `ι`.

Simplification used in the whole directory: `INMOST_DATA_REAL_TYPE` is an arbitrary commutative
ring `K` with decidable equality, i.e. arithmetic is exact.  Rounding, overflow to infinity and
NaN are not modelled.  Columns are natural numbers (no word overflow).
-/

namespace Verif.Sparse

variable {ι : Type} [LinearOrder ι] {K : Type} [CommRing K] [DecidableEq K]

/-- An array of pairs (index, value), inmost_sparse.h L165-195 and L343-350. -/
abbrev RowI (ι K : Type) := List (ι × K)

/-- `Sparse::Row`: the index is a column. -/
abbrev Row (K : Type) := RowI Nat K

/-- `Row::get_safe`, inmost_sparse.h L240-244 (`HessianRow`: L387-391): the first entry with this column, else zero. -/
def getSafe : RowI ι K → ι → K
  | [], _ => 0
  | (i, v) :: r, c => if i = c then v else getSafe r c

/-- An access through the non-constant `Row::operator[]`, inmost_sparse.h L215-221 (`HessianRow`: L371-377): the first entry with
this column is passed by reference; if there is none, a zero entry is appended first.  `f` is what the
caller does to the value (`r[c] = x`, `r[c] += x`, ...). -/
def access : RowI ι K → ι → (K → K) → RowI ι K
  | [], c, f => [(c, f 0)]
  | (i, v) :: r, c, f => if i = c then (i, f v) :: r else (i, v) :: access r c f

/-- `Row::Push`, inmost_sparse.h L297 (`HessianRow`: L418). -/
def push (r : RowI ι K) (c : ι) (v : K) : RowI ι K := r ++ [(c, v)]

/-- `Sparse::Vector`: values on the interval of indices starting with `beg`
(inmost_sparse.h L60-130, container `interval`). -/
structure Vec (K : Type) where
  beg : Nat
  data : List K

/-- `Vector::operator[]`, inmost_sparse.h L99-101; `none` is an access outside of the interval. -/
def Vec.get? (x : Vec K) (i : Nat) : Option K := if i < x.beg then none else x.data[i - x.beg]?

/-- Assignment to an element of a vector. -/
def Vec.put (x : Vec K) (i : Nat) (v : K) : Vec K := { x with data := x.data.set (i - x.beg) v }

/-- The loop of `Row::RowVec` with the partial sum `ret`, sparse.cpp L583-589. -/
def rowVecFrom (x : Vec K) : K → Row K → Option K
  | ret, [] => some ret
  | ret, (i, v) :: r =>
    match x.get? i with
    | some xi => rowVecFrom x (ret + xi * v) r
    | none => none

/-- `Row::RowVec`, sparse.cpp L583-589. -/
def rowVec (x : Vec K) (r : Row K) : Option K := rowVecFrom x 0 r

/-- `Row::isSorted`, sparse.cpp L591-596 and L342-347 (not strict). -/
def isSorted : RowI ι K → Bool
  | [] => true
  | [_] => true
  | (i, _) :: (j, w) :: r => !decide (j < i) && isSorted ((j, w) :: r)

/-- Append an entry to the output, or add to its last entry when that has the same column
(sparse.cpp L630-637, L642-649).  The output is kept in reverse order. -/
def emit (out : RowI ι K) (c : ι) (v : K) : RowI ι K :=
  match out with
  | [] => [(c, v)]
  | (d, w) :: rest => if d = c then (d, w + v) :: rest else (c, v) :: (d, w) :: rest

/-- The two tail loops of `MergeSortedRows`, sparse.cpp L628-651. -/
def drain (coef : K) : RowI ι K → RowI ι K → RowI ι K
  | out, [] => out
  | out, (c, v) :: r => drain coef (emit out c (coef * v)) r

/-- The main loop of `MergeSortedRows`, sparse.cpp L603-627; the output is reversed. -/
def mergeLoop (alpha beta : K) : RowI ι K → RowI ι K → RowI ι K → RowI ι K
  | out, [], right => drain beta (drain alpha out []) right
  | out, left, [] => drain beta (drain alpha out left) []
  | out, (i, v) :: left, (j, w) :: right =>
    if i < j then mergeLoop alpha beta ((i, alpha * v) :: out) left ((j, w) :: right)
    else if i = j then mergeLoop alpha beta ((i, alpha * v + beta * w) :: out) left right
    else mergeLoop alpha beta ((j, beta * w) :: out) ((i, v) :: left) right
  termination_by _ l r => l.length + r.length

/-- `Row::MergeSortedRows`, sparse.cpp L597-653, and `HessianRow::MergeSortedRows`, L349-405; `none` is a failed assertion. -/
def mergeSortedRows (alpha : K) (left : RowI ι K) (beta : K) (right : RowI ι K) :
    Option (RowI ι K) :=
  if isSorted left && isSorted right then some (mergeLoop alpha beta [] left right).reverse else none

/-- `Sparse::Matrix`: rows on the interval starting with `beg`. -/
structure Mat (K : Type) where
  beg : Nat
  rows : List (Row K)

/-- The row loop of `Matrix::MatVec`, sparse.cpp L951-952. -/
def matVecLoop (alpha : K) (x : Vec K) (beta : K) : Nat → List (Row K) → Vec K → Option (Vec K)
  | _, [], out => some out
  | ind, r :: rows, out =>
    match out.get? ind, rowVec x r with
    | some o, some d => matVecLoop alpha x beta (ind + 1) rows (out.put ind (beta * o + alpha * d))
    | _, _ => none

/-- `Matrix::MatVec`, sparse.cpp L932-954, for an output vector that is not empty. -/
def matVec (A : Mat K) (alpha : K) (x : Vec K) (beta : K) (out : Vec K) : Option (Vec K) :=
  matVecLoop alpha x beta A.beg A.rows out

/-- The loop over the entries of one row in `MatVecTranspose`, sparse.cpp L983-984. -/
def scatterRow (s : K) : Row K → Vec K → Option (Vec K)
  | [], out => some out
  | (c, v) :: r, out =>
    match out.get? c with
    | some o => scatterRow s r (out.put c (o + s * v))
    | none => none

/-- The row loop of `MatVecTranspose`, sparse.cpp L981-985. -/
def matVecTLoop (alpha : K) (x : Vec K) : Nat → List (Row K) → Vec K → Option (Vec K)
  | _, [], out => some out
  | ind, r :: rows, out =>
    match r with
    | [] => matVecTLoop alpha x (ind + 1) rows out
    | _ =>
      match x.get? ind with
      | none => none
      | some xi =>
        match scatterRow (alpha * xi) r out with
        | none => none
        | some out' => matVecTLoop alpha x (ind + 1) rows out'

/-- `Matrix::MatVecTranspose`, sparse.cpp L960-987: the output is scaled (or zeroed when `beta` is
zero), then every row is added. -/
def matVecTranspose (A : Mat K) (alpha : K) (x : Vec K) (beta : K) (out : Vec K) : Option (Vec K) :=
  let out := { out with data := if beta ≠ 0 then out.data.map (· * beta) else out.data.map fun _ => 0 }
  matVecTLoop alpha x A.beg A.rows out

/-- Default interval of `Vector::Load` and `Matrix::Load` on process `rank` of `np`, sparse.cpp
L739-745 and L1089-1095. -/
def defaultInterval (n np rank : Nat) : Nat × Nat :=
  let block := n / np
  let mbeg := rank * block
  (mbeg, if rank = np - 1 then n else mbeg + block)

end Verif.Sparse
