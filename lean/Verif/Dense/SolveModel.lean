import Verif.Dense.Loops
import Mathlib.Algebra.Order.Field.Basic
import Mathlib.Algebra.Order.AbsoluteValue.Basic

/-!
# Model of `AbstractMatrixReadOnly::Solve`, Source/Headers/inmost_dense.h L4342-4498

The numbers are the elements of a linearly ordered field: rounding, overflow and derivatives of the entries are
not modelled.  A matrix is a function of row and column; all indices used by the code are inside the matrices because the loops run
over rows and columns of the matrices.  Loops are modelled one to one.
-/

namespace Verif.Dense

variable {K : Type} [Field K] [LinearOrder K]

/-- An element of the product `A^T * B` of matrices with `n` rows, L4361-4362 and `MatrixMul` L2856-2863: the sum starts with the
product for the row 0. -/
def tmul (n : Nat) (A B : Nat → Nat → K) : Nat → Nat → K := fun i j => forRange 1 n (fun k s => s + A k i * B k j) (A 0 i * B 0 j)

/-- The variables of the elimination: `AtA`, `AtB`, `order`.  `pivots` is not in the code: the list of values `AtA(i,i)` at the check
L4432, latest first. -/
structure St (K : Type) where
  M : Nat → Nat → K
  R : Nat → Nat → K
  order : Nat → Nat
  pivots : List K

/-- The search for the greatest element, L4375-4391: its absolute value, row and column. -/
def findPivot (m i : Nat) (M : Nat → Nat → K) : K × Nat × Nat :=
  forRange i m (fun k s => forRange i m (fun q s => if |M k q| > s.1 then (|M k q|, k, q) else s) s) (|M i i|, i, i)

/-- Exchange of two rows of a matrix with `w` columns, L4396-4402 and L4404-4410. -/
def swapRows (w a b : Nat) (M : Nat → Nat → K) : Nat → Nat → K :=
  forRange 0 w (fun q M =>
    let temp := M a q
    let M := upd M a q (M b q)
    upd M b q temp) M

/-- Exchange of two columns of a matrix with `h` rows, L4415-4421. -/
def swapCols (h a b : Nat) (M : Nat → Nat → K) : Nat → Nat → K :=
  forRange 0 h (fun k M =>
    let temp := M k a
    let M := upd M k a (M k b)
    upd M k b temp) M

/-- Exchange of two elements of `order`, L4423-4428. -/
def swapOrder (a b : Nat) (o : Nat → Nat) : Nat → Nat :=
  let temp := o a
  let o := updV o a (o b)
  updV o b temp

/-- The choice of the pivot with exchanges, L4375-4430. -/
def pivoting (m l i : Nat) (s : St K) : St K :=
  let p := findPivot m i s.M
  let maxk := p.2.1
  let maxq := p.2.2
  let s := if maxk ≠ i then { s with M := swapRows m maxk i s.M, R := swapRows l maxk i s.R } else s
  if maxq ≠ i then { s with M := swapCols m maxq i s.M, order := swapOrder maxq i s.order } else s

/-- The small constants `1.0e-54` and `1.0e-12`. -/
def eps54 : K := 1 / 10 ^ 54
/-- `1.0e-12` -/
def eps12 : K := 1 / 10 ^ 12

/-- The check of a small pivot, L4432-4461: the (possibly replaced) pivot, or a failure (with the list of pivots). -/
def checkPivot (l i : Nat) (s : St K) : Except (List K) (St K) :=
  let s1 := { s with pivots := s.M i i :: s.pivots }
  if |s.M i i| < eps54 then
    if forRange 0 l (fun k ok => ok && !decide (|s.R i k / eps54| > 1)) true then
      .ok { s1 with M := upd s.M i i (if s.M i i < 0 then -eps12 else eps12) }
    else .error s1.pivots
  else .ok s1

/-- Division of the row and the column by the pivot, L4463-4467. -/
def divide (m i : Nat) (M : Nat → Nat → K) : Nat → Nat → K :=
  forRange (i + 1) m (fun k M =>
    let M := upd M i k (M i k / M i i)
    upd M k i (M k i / M i i)) M

/-- Elimination in the matrix, L4469-4473. -/
def elimM (m i : Nat) (M : Nat → Nat → K) : Nat → Nat → K :=
  forRange (i + 1) m (fun k M => forRange (i + 1) m (fun q M => upd M k q (M k q - M k i * M i i * M i q)) M) M

/-- Elimination in the right-hand sides, L4475-4482. -/
def elimR (m l i : Nat) (M R : Nat → Nat → K) : Nat → Nat → K :=
  forRange 0 l (fun k R =>
    let R := forRange (i + 1) m (fun j R => upd R j k (R j k - R i k * M j i)) R
    upd R i k (R i k / M i i)) R

/-- One step of the elimination, L4373-4483. -/
def elimStep (m l i : Nat) (s : St K) : Except (List K) (St K) :=
  match checkPivot l i (pivoting m l i s) with
  | .error ps => .error ps
  | .ok s =>
    let M := elimM m i (divide m i s.M)
    .ok { s with M := M, R := elimR m l i M s.R }

/-- The loop of the elimination, L4373; an error is the number `i + 1` of the step (`*ierr` or an exception),
with the list of pivots. -/
def elimLoop (m l : Nat) (i : Nat) : Nat → St K → Except (Nat × List K) (St K)
  | 0, s => .ok s
  | n + 1, s =>
    match elimStep m l i s with
    | .error ps => .error (i + 1, ps)
    | .ok s => elimLoop m l (i + 1) n s

/-- Back substitution, L4485-4494, with the copy to the result. -/
def backSubst (m l : Nat) (s : St K) (ret : Nat → Nat → K) : (Nat → Nat → K) × (Nat → Nat → K) :=
  forRange 0 l (fun k st =>
    let R := forDown (fun i R => forRange (i + 1) m (fun j R => upd R i k (R i k - R j k * s.M i j)) R) m st.1
    (R, forRange 0 m (fun i ret => upd ret (s.order i) k (R i k)) st.2)) (s.R, ret)

/-- `A.Solve(B, ierr)` for an `n` by `m` matrix `A` and an `n` by `l` matrix `B`: the solution or the error, with the pivots.  The
product with an empty matrix accesses its missing row 0: this is the error 0. -/
def solve (n m l : Nat) (A B : Nat → Nat → K) : Except (Nat × List K) ((Nat → Nat → K) × List K) :=
  if n = 0 ∧ 0 < m then .error (0, []) else
  match elimLoop m l 0 m ⟨tmul n A A, tmul n A B, fun i => i, []⟩ with
  | .error e => .error e
  | .ok s => .ok ((backSubst m l s (fun _ _ => 0)).2, s.pivots)

end Verif.Dense
