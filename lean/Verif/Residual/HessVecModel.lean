import Verif.Autodiff.HessModel

/-!
# Model of the product of a Hessian matrix with a matrix

Source: `/repo/Source/Solver/sparse.cpp` L325-340 (`HessianRow::RowVec`) and L1571-1593 (`HessianMatrix::MatVec`).

Simplification: arithmetic is that of the real numbers.
-/

namespace Verif.Residual

open Verif.Sparse Verif.Autodiff

/-- The loop `rJ.GetValue(i) *= beta` over the first `n` entries, sparse.cpp L328; `none` is a failed assertion (there are
fewer entries). -/
noncomputable def scaleFirst (beta : ℝ) : Nat → Row ℝ → Option (Row ℝ)
  | 0, r => some r
  | _ + 1, [] => none
  | n + 1, e :: r => (scaleFirst beta n r).map ((e.1, e.2 * beta) :: ·)

/-- The body of the second loop for one entry of the Hessian, sparse.cpp L331-338. -/
noncomputable def addEntry (alpha : ℝ) (U : Row ℝ) (J : Row ℝ) (h : HIdx × ℝ) : Row ℝ :=
  let i := (ofLex h.1).1
  let j := (ofLex h.1).2
  if i = j then access J i (· + alpha * getSafe U i * h.2)
  else access (access J i (· + alpha * getSafe U j * h.2)) j (· + alpha * getSafe U i * h.2)

/-- The second loop, sparse.cpp L329-339: the first `n` entries of the Hessian; `none` if there are fewer. -/
noncomputable def addLoop (alpha : ℝ) (U : Row ℝ) : Nat → HRow → Row ℝ → Option (Row ℝ)
  | 0, _, J => some J
  | _ + 1, [], _ => none
  | n + 1, h :: H, J => addLoop alpha U n H (addEntry alpha U J h)

/-- `HessianRow::RowVec(alpha, rU, beta, rJ)`, sparse.cpp L325-340: both loops run to `rU.Size()` (L327). -/
noncomputable def hessRowVec (H : HRow) (alpha : ℝ) (U : Row ℝ) (beta : ℝ) (J : Row ℝ) : Option (Row ℝ) :=
  (scaleFirst beta U.length J).bind (addLoop alpha U U.length H)

/-- A matrix: an interval of rows. -/
structure IMat (R : Type) where
  beg : Nat
  stop : Nat
  row : Nat → R

/-- `operator []`, container.hpp L954-965: `none` is a failed assertion. -/
def IMat.get {R : Type} (M : IMat R) (k : Nat) : Option R := if M.beg ≤ k ∧ k < M.stop then some (M.row k) else none

/-- "if( J.Empty() ) J.SetInterval(vbeg,vend)", sparse.cpp L1575-1580: new rows are empty. -/
def start (H : IMat HRow) (J : IMat (Row ℝ)) : IMat (Row ℝ) :=
  if J.beg = J.stop then ⟨H.beg, H.stop, fun _ => []⟩ else J

/-- The loop over rows, sparse.cpp L1590-1591: `n` rows from `k`. -/
noncomputable def matVecLoop (H : IMat HRow) (alpha : ℝ) (U : IMat (Row ℝ)) (beta : ℝ) :
    Nat → Nat → IMat (Row ℝ) → Option (IMat (Row ℝ))
  | _, 0, J => some J
  | k, n + 1, J =>
    match U.get k, J.get k with
    | some u, some j =>
      match hessRowVec (H.row k) alpha u beta j with
      | some j' => matVecLoop H alpha U beta (k + 1) n { J with row := fun i => if i = k then j' else J.row i }
      | none => none
    | _, _ => none

/-- `HessianMatrix::MatVec(alpha, U, beta, J)`, sparse.cpp L1571-1593. -/
noncomputable def matVec (H : IMat HRow) (alpha : ℝ) (U : IMat (Row ℝ)) (beta : ℝ) (J : IMat (Row ℝ)) :
    Option (IMat (Row ℝ)) :=
  matVecLoop H alpha U beta H.beg (H.stop - H.beg) (start H J)

end Verif.Residual
