import Verif.Autodiff.HessModel
import Mathlib.Analysis.SpecialFunctions.Pow.Real

/-!
# Model of the class `Residual`

Source: `/repo/Source/Autodiff/residual.cpp`, `/repo/Source/Headers/inmost_residual.h`, and `operator +=` of
`multivar_expression_reference`, `/repo/Source/Headers/inmost_expression.h` L709-721.

Simplifications: arithmetic is that of the real numbers, except that division by zero and its consequences in
`Rescale(0)` are those of IEEE arithmetic.  The Jacobian has the interval of the residual (`SetInterval`, L13-17, gives
both the same one); the Hessian has its own.  Vectors and matrices are functions of the index together with an
interval, an access outside of the interval is a failed assertion (container.hpp L954-965).  Threads take the
rows of the loops in any order; each row is handled by one thread and only its own data is touched, so the loops are
modelled row by row.
-/

namespace Verif.Residual

open Verif.Sparse Verif.Autodiff

/-- The data of `Residual`, inmost_residual.h L19-22. -/
structure Res where
  /-- `residual.GetFirstIndex()` -/
  first : Nat
  /-- `residual.GetLastIndex()` -/
  last : Nat
  res : Nat → ℝ
  jac : Nat → Row ℝ
  /-- the interval of the Hessian -/
  hfirst : Nat
  hlast : Nat
  hess : Nat → HRow
  /-- the interval of the locks -/
  lfirst : Nat
  llast : Nat

/-- `hessian.Empty()`, container.hpp `interval::empty`: `beg_index == end_index`. -/
def Res.hempty (r : Res) : Bool := r.hfirst == r.hlast

/-- The constructor with its default, residual.cpp L95-98: the Hessian is empty and there are no
locks. -/
def Res.new (first last : Nat) : Res := ⟨first, last, fun _ => 0, fun _ => [], 0, 0, fun _ => [], 0, 0⟩

/-- The loop over rows, `for(k = GetFirstIndex(); k < GetLastIndex(); ++k)` (L35, L68), with a body that reads and
writes `residual[k]`, `jacobian[k]` and, unless the Hessian is empty, `hessian[k]`: `none` is an access to a row of
the Hessian that does not exist (`Rescale` does not touch the Hessian for a row of zeros; the model asks for all rows). -/
def Res.each (r : Res) (body : ℝ × Row ℝ × HRow → ℝ × Row ℝ × HRow) : Option Res :=
  if r.first < r.last ∧ ¬ r.hempty ∧ ¬ (r.hfirst ≤ r.first ∧ r.last ≤ r.hlast) then none
  else some { r with
    res := fun k => if r.first ≤ k ∧ k < r.last then (body (r.res k, r.jac k, r.hess k)).1 else r.res k
    jac := fun k => if r.first ≤ k ∧ k < r.last then (body (r.res k, r.jac k, r.hess k)).2.1 else r.jac k
    hess := fun k => if r.first ≤ k ∧ k < r.last ∧ ¬ r.hempty then (body (r.res k, r.jac k, r.hess k)).2.2 else r.hess k }

/-- `Residual::Clear`, residual.cpp L30-41. -/
def Res.clear (r : Res) : Option Res := r.each fun _ => (0, [], [])

/-- `Residual::SetInterval`, residual.cpp L13-17, with container.hpp `set_interval_beg` and `set_interval_end` (L966-995): the
arrays are moved to the new beginning and then cut or continued with empty rows.  `none`: an interval of negative
length.  The Hessian and the locks keep their intervals. -/
def Res.setInterval (r : Res) (beg stop : Nat) : Option Res :=
  if stop < beg then none
  else some { r with
    first := beg
    last := stop
    res := fun k => if beg ≤ k ∧ k - beg < r.last - r.first then r.res (r.first + (k - beg)) else 0
    jac := fun k => if beg ≤ k ∧ k - beg < r.last - r.first then r.jac (r.first + (k - beg)) else [] }

/-- `Residual::InitLocks`, inmost_residual.h L99, and `LockService::SetInterval`, sparse.cpp L1335-1345. -/
def Res.initLocks (r : Res) : Res :=
  if r.last = r.first then r else { r with lfirst := r.first, llast := r.last }

/-- `Residual::Lock`, inmost_residual.h L102: whether a lock is taken; `none` is a failed assertion. -/
def Res.lock (r : Res) (k : Nat) : Option Bool :=
  if r.lfirst = r.llast then some false
  else if r.lfirst ≤ k ∧ k < r.llast then some true
  else none

/-- The copy constructor, residual.cpp L99-102: there is no copy of the locks. -/
def Res.copy (r : Res) : Res := { r with lfirst := 0, llast := 0 }

/-- A number or positive infinity. -/
inductive Ext where
  | fin (x : ℝ)
  | inf

/-- `pow(norm, 1.0/p)`, L81: for `p = 0` the exponent is infinite, and `pow(norm, inf)` is 0, 1 or infinity for `norm` below
1, equal to 1 or above 1. -/
noncomputable def root (s : ℝ) (p : Nat) : Ext :=
  if p = 0 then if s < 1 then .fin 0 else if s = 1 then .fin 1 else .inf
  else .fin (s ^ (1 / (p : ℝ)))

/-- The infinite norm, L73-75. -/
noncomputable def maxLoop : ℝ → Row ℝ → ℝ
  | norm, [] => norm
  | norm, e :: r => maxLoop (if norm < |e.2| then |e.2| else norm) r

/-- The sum of powers, L79-80; `pow(x, 0)` is 1 for every `x`. -/
noncomputable def powLoop (p : Nat) : ℝ → Row ℝ → ℝ
  | norm, [] => norm
  | norm, e :: r => powLoop p (norm + |e.2| ^ p) r

/-- The norm of a row, L70-82; `none` is `ENUMUNDEF`. -/
noncomputable def norm (p : Option Nat) (r : Row ℝ) : Ext :=
  match p with
  | none => .fin (maxLoop 0 r)
  | some p => root (powLoop p 0 r) p

/-- `if( norm ) norm = 1.0/norm`, L83-85: the factor, `none` if the norm is zero. -/
noncomputable def factor : Ext → Option ℝ
  | .fin x => if x = 0 then none else some (1 / x)
  | .inf => some 0

/-- The body of the loop of `Rescale`, L70-92. -/
noncomputable def rescaleRow (p : Option Nat) (x : ℝ × Row ℝ × HRow) : ℝ × Row ℝ × HRow :=
  match factor (norm p x.2.1) with
  | none => x
  | some c => (x.1 * c, scale x.2.1 c, scale x.2.2 c)

/-- `Residual::Rescale`, residual.cpp L63-94; `none` for `p` is `ENUMUNDEF`. -/
noncomputable def Res.rescale (r : Res) (p : Option Nat) : Option Res := r.each (rescaleRow p)

/-- The loop of `Norm`, L48-49: `n` rows from `k`. -/
noncomputable def sumSq (v : Nat → ℝ) : ℝ → Nat → Nat → ℝ
  | ret, _, 0 => ret
  | ret, k, n + 1 => sumSq v (ret + v k * v k) (k + 1) n

/-- `Residual::Norm` on all processes, L42-55: the sum of the local sums (`MPI_Allreduce`), then the root.  Without MPI there
is one process. -/
noncomputable def normAll (rs : List Res) : ℝ :=
  Real.sqrt ((rs.map fun r => sumSq r.res 0 r.first (r.last - r.first)).sum)

/-- `R[k] += expr`: `operator []`, inmost_residual.h L51-52, and `operator +=`, inmost_expression.h L709-721.  The
variables of the expression are in `s` (they are not rows of `R`); `m` is the accumulator of the current
`Automatizator` if there is one.  `none`: a row outside of the interval or a failure of the accumulator. -/
noncomputable def Res.add (r : Res) (m : Option (Merger ℝ)) (s : Store) (k : Nat) (e : Expr) :
    Option (Res × Option (Merger ℝ)) :=
  if r.first ≤ k ∧ k < r.last then
    match m with
    | some m =>
      match addBasicExpression s s (r.jac k) 1 1 e m with
      | some (row, m') =>
        some ({ r with res := fun j => if j = k then r.res k + value s e else r.res j
                       jac := fun j => if j = k then row else r.jac j }, some m')
      | none => none
    | none =>
      some ({ r with res := fun j => if j = k then r.res k + value s e else r.res j
                     jac := fun j => if j = k then jacRow s s 1 e (r.jac k) else r.jac j }, none)
  else none

/-- The assembly of a system: contributions to equations one after another.  Threads that lock the equation
(inmost_residual.h L102-105) execute the contributions in some order. -/
noncomputable def Res.assemble (r : Res) (m : Option (Merger ℝ)) (s : Store) :
    List (Nat × Expr) → Option (Res × Option (Merger ℝ))
  | [] => some (r, m)
  | (k, e) :: cs =>
    match r.add m s k e with
    | some (r', m') => r'.assemble m' s cs
    | none => none

end Verif.Residual
