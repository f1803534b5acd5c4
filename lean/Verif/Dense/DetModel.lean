import Verif.Dense.Loops
import Mathlib.Algebra.Order.Field.Basic
import Mathlib.Algebra.Order.AbsoluteValue.Basic

/-!
# Model of `AbstractMatrixReadOnly::Det`, Source/Headers/inmost_dense.h L210-241

The numbers are elements of a linearly ordered field: rounding, overflow and derivatives of the entries are not modelled.  A matrix is a
function of row and column.  The matrix is square (assertion L212) with `n` rows.
-/

namespace Verif.Dense.Det

variable {K : Type} [Field K] [LinearOrder K]

/-- The variables of L215-217.  `visited` tells whether `row_visited` differs from -1 (a visited row gets a column number, which is not
negative).  `tested` is not in the code: the numbers whose absolute values were compared with `eps`, latest first. -/
structure St (K : Type) where
  A : Nat → Nat → K
  visited : Nat → Bool
  ret : K
  tested : List K

/-- The search L221-229 of an unvisited row from the row `r` on; the argument `fuel` is the number of rows from `r` to the last one.
`small` is the test `fabs(...) < eps`.  The result is the row, or `none` for `return Var(0)`, the sign and the tested numbers. -/
def search (small : K → Bool) (d : Nat) (s : St K) : Nat → Nat → K → List K → Option Nat × K × List K
  | 0, _, sign, t => (none, sign, t)
  | fuel + 1, r, sign, t =>
    if s.visited r then search small d s fuel (r + 1) sign t
    else if small (s.A r d) then search small d s fuel (r + 1) (sign * -1) (s.A r d :: t)
    else (some r, sign, s.A r d :: t)

/-- The elimination L232-238 with the row `r`; `big` is the test `fabs(coef) > eps`. -/
def eliminate (big : K → Bool) (n d r : Nat) (s : St K) : St K :=
  forRange 0 n (fun i s =>
    if s.visited i then s
    else
      let coef := s.A i d / s.A r d
      let s := { s with tested := coef :: s.tested }
      if big coef then { s with A := forRange 0 n (fun j A => upd A i j (A i j - coef * A r j)) s.A } else s) s

/-- The loop L219-239 from the column `d` on; the first argument is the number of columns left.  The result is the returned value and the
tested numbers. -/
def run (small big : K → Bool) (n : Nat) : Nat → Nat → St K → K × List K
  | 0, _, s => (s.ret, s.tested)
  | k + 1, d, s =>
    match search small d s n 0 1 s.tested with
    | (none, _, t) => (0, t)
    | (some r, sign, t) =>
      let s := { s with visited := updV s.visited r true, ret := s.ret * (sign * s.A r d), tested := t }
      run small big n k (d + 1) (eliminate big n d r s)

/-- The variables at L218. -/
def start (A : Nat → Nat → K) : St K := ⟨A, fun _ => false, 1, []⟩

/-- `Det()` with the tolerance `eps`: the result and the numbers that were compared with `eps`. -/
def detRun (eps : K) (n : Nat) (A : Nat → Nat → K) : K × List K :=
  run (fun x => decide (|x| < eps)) (fun x => decide (|x| > eps)) n n 0 (start A)

/-- `eps`, L213. -/
def eps : K := 1 / 10 ^ 13

/-- `Det()`, L210-241. -/
def det (n : Nat) (A : Nat → Nat → K) : K := (detRun eps n A).1

end Verif.Dense.Det
