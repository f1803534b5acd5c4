import Verif.Views.Model
import Mathlib.Algebra.BigOperators.Group.Finset.Basic

/-!
# What the expressions mean

Tables of numbers: the number of rows, the number of columns and the elements.  The meaning of each operation is given by its elements as in a
textbook, with sums of indices in place of the divisions and differences used by the program.
-/

namespace Verif.Views

/-- A table: `n` rows, `m` columns and elements. -/
structure Table (R : Type) where
  n : Nat
  m : Nat
  A : Nat → Nat → R

variable {R : Type}

/-- The rows of `T` from `brow` to `erow`, columns from `bcol` to `ecol`. -/
def IsSub (T : Table R) (brow erow bcol ecol : Nat) (S : Table R) : Prop :=
  brow + S.n = erow ∧ erow ≤ T.n ∧ bcol + S.m = ecol ∧ ecol ≤ T.m ∧ ∀ i < S.n, ∀ j < S.m, S.A i j = T.A (brow + i) (bcol + j)

/-- `T` placed in a table of zeros of a given size. -/
def IsBlock [Zero R] (T : Table R) (nrows ncols orow ocol : Nat) (S : Table R) : Prop :=
  S.n = nrows ∧ S.m = ncols ∧
  (∀ i < T.n, ∀ j < T.m, orow + i < nrows → ocol + j < ncols → S.A (orow + i) (ocol + j) = T.A i j) ∧
  (∀ i < nrows, ∀ j < ncols, (¬ ∃ i' < T.n, ∃ j' < T.m, i = orow + i' ∧ j = ocol + j') → S.A i j = 0)

/-- Transposition. -/
def IsTr (T S : Table R) : Prop := S.n = T.m ∧ S.m = T.n ∧ ∀ i < S.n, ∀ j < S.m, S.A i j = T.A j i

/-- `T` above `U`. -/
def IsCatR (T U S : Table R) : Prop :=
  T.m = U.m ∧ S.n = T.n + U.n ∧ S.m = T.m ∧ (∀ i < T.n, ∀ j < T.m, S.A i j = T.A i j) ∧ ∀ i < U.n, ∀ j < T.m, S.A (T.n + i) j = U.A i j

/-- `U` to the right of `T`. -/
def IsCatC (T U S : Table R) : Prop :=
  T.n = U.n ∧ S.n = T.n ∧ S.m = T.m + U.m ∧ (∀ i < T.n, ∀ j < T.m, S.A i j = T.A i j) ∧ ∀ i < T.n, ∀ j < U.m, S.A i (T.m + j) = U.A i j

/-- The same elements row by row with other sizes. -/
def IsRepack (T : Table R) (n m : Nat) (S : Table R) : Prop :=
  S.n = n ∧ S.m = m ∧ T.n * T.m = n * m ∧
  ∀ i < n, ∀ j < m, ∀ i' < T.n, ∀ j' < T.m, i * m + j = i' * T.m + j' → S.A i j = T.A i' j'

/-- Element by element. -/
def IsMap (f : R → R) (T S : Table R) : Prop := S.n = T.n ∧ S.m = T.m ∧ ∀ i < S.n, ∀ j < S.m, S.A i j = f (T.A i j)

/-- Element by element, two arguments of the same size. -/
def IsMap2 (f : R → R → R) (T U S : Table R) : Prop :=
  T.n = U.n ∧ T.m = U.m ∧ S.n = T.n ∧ S.m = T.m ∧ ∀ i < S.n, ∀ j < S.m, S.A i j = f (T.A i j) (U.A i j)

/-- The product of Kronecker. -/
def IsKron [Mul R] (T U S : Table R) : Prop :=
  S.n = T.n * U.n ∧ S.m = T.m * U.m ∧
  ∀ i < T.n, ∀ j < T.m, ∀ k < U.n, ∀ l < U.m, S.A (i * U.n + k) (j * U.m + l) = T.A i j * U.A k l

/-- The product of matrices. -/
def IsMul [CommRing R] (T U S : Table R) : Prop :=
  T.m = U.n ∧ S.n = T.n ∧ S.m = U.m ∧ ∀ i < S.n, ∀ j < S.m, S.A i j = ∑ k ∈ Finset.range T.m, T.A i k * U.A k j

/-- The table stored row by row in a matrix. -/
def IsMat (M : Mat R) (S : Table R) : Prop :=
  S.n = M.n ∧ S.m = M.m ∧ M.a.length = M.n * M.m ∧ ∀ i < S.n, ∀ j < S.m, M.a[i * M.m + j]? = some (S.A i j)

/-- What an object for writing shows. -/
inductive Shows [Zero R] (s : State R) : Lv → Table R → Prop
  | mat {k S} : IsMat (s.mats k) S → Shows s (.mat k) S
  | sub {v T S brow erow bcol ecol} : Shows s v T → IsSub T brow erow bcol ecol S → Shows s (.sub v brow erow bcol ecol) S
  | block {v T S nrows ncols orow ocol} : Shows s v T → IsBlock T nrows ncols orow ocol S → Shows s (.block v nrows ncols orow ocol) S
  | tr {v T S} : Shows s v T → IsTr T S → Shows s (.tr v) S
  | catR {v w T U S} : Shows s v T → Shows s w U → IsCatR T U S → Shows s (.catR v w) S
  | catC {v w T U S} : Shows s v T → Shows s w U → IsCatC T U S → Shows s (.catC v w) S
  | repack {v T S n m} : Shows s v T → IsRepack T n m S → Shows s (.repack v n m) S

/-- What an expression means. -/
inductive Means [CommRing R] [Div R] (s : State R) : Ex R → Table R → Prop
  | lv {v S} : Shows s v S → Means s (.lv v) S
  | lit {M S} : IsMat M S → Means s (.lit M) S
  | unit {n c S} : S.n = n → S.m = n → (∀ i < n, ∀ j < n, S.A i j = if i = j then c else 0) → Means s (.unit n c) S
  | row {n c S} : S.n = 1 → S.m = n → (∀ j < n, S.A 0 j = c) → Means s (.row n c) S
  | col {n c S} : S.n = n → S.m = 1 → (∀ i < n, S.A i 0 = c) → Means s (.col n c) S
  | diag {d S} : S.n = d.length → S.m = d.length →
      (∀ i (h : i < d.length), S.A i i = d[i]) → (∀ i < d.length, ∀ j < d.length, i ≠ j → S.A i j = 0) → Means s (.diag d) S
  | sum {a b T U S} : Means s a T → Means s b U → IsMap2 (· + ·) T U S → Means s (.sum a b) S
  | diff {a b T U S} : Means s a T → Means s b U → IsMap2 (· - ·) T U S → Means s (.diff a b) S
  | neg {a T S} : Means s a T → IsMap (- ·) T S → Means s (.neg a) S
  | tr {a T S} : Means s a T → IsTr T S → Means s (.tr a) S
  | catR {a b T U S} : Means s a T → Means s b U → IsCatR T U S → Means s (.catR a b) S
  | catC {a b T U S} : Means s a T → Means s b U → IsCatC T U S → Means s (.catC a b) S
  | repack {a T S n m} : Means s a T → IsRepack T n m S → Means s (.repack a n m) S
  | sub {a T S brow erow bcol ecol} : Means s a T → IsSub T brow erow bcol ecol S → Means s (.sub a brow erow bcol ecol) S
  | block {a T S nrows ncols orow ocol} : Means s a T → IsBlock T nrows ncols orow ocol S → Means s (.block a nrows ncols orow ocol) S
  | scale {a T S c} : Means s a T → IsMap (· * c) T S → Means s (.scale a c) S
  | quot {a T S c} : Means s a T → IsMap (· / c) T S → Means s (.quot a c) S
  | kron {a b T U S} : Means s a T → Means s b U → IsKron T U S → Means s (.kron a b) S

/-- The matrices an object for writing refers to. -/
def Lv.mats : Lv → List Nat
  | .mat k => [k]
  | .sub v _ _ _ _ => v.mats
  | .block v _ _ _ _ => v.mats
  | .tr v => v.mats
  | .catR v w => v.mats ++ w.mats
  | .catC v w => v.mats ++ w.mats
  | .repack v _ _ => v.mats

/-- The matrices an expression refers to. -/
def Ex.mats : Ex R → List Nat
  | .lv v => v.mats
  | .lit _ | .unit _ _ | .row _ _ | .col _ _ | .diag _ => []
  | .sum a b | .diff a b | .catR a b | .catC a b | .kron a b => a.mats ++ b.mats
  | .neg a | .tr a | .repack a _ _ | .sub a _ _ _ _ | .block a _ _ _ _ | .scale a _ | .quot a _ => a.mats

/-- Windows, transposed and repacked windows of one matrix. -/
inductive Window : Lv → Prop
  | mat (k : Nat) : Window (.mat k)
  | sub {v} (brow erow bcol ecol : Nat) : Window v → Window (.sub v brow erow bcol ecol)
  | tr {v} : Window v → Window (.tr v)
  | repack {v} (n m : Nat) : Window v → Window (.repack v n m)

/-- Expressions that use the object `v` only element by element: each element of the expression uses no element of `v` other than the one
at the same position. -/
inductive Pointwise (v : Lv) : Ex R → Prop
  | self : Pointwise v (.lv v)
  | other {e} : (∀ k ∈ Ex.mats e, k ∉ v.mats) → Pointwise v e
  | sum {a b} : Pointwise v a → Pointwise v b → Pointwise v (.sum a b)
  | diff {a b} : Pointwise v a → Pointwise v b → Pointwise v (.diff a b)
  | neg {a} : Pointwise v a → Pointwise v (.neg a)
  | scale {a c} : Pointwise v a → Pointwise v (.scale a c)
  | quot {a c} : Pointwise v a → Pointwise v (.quot a c)

end Verif.Views
