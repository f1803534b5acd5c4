import Mathlib.Data.Matrix.Mul
import Mathlib.Data.Real.Sqrt

/-!
# Model of the iterative solvers, Source/Solver/solver_inner/solver_bcgsl.hpp

What is simplified:

* Exact real arithmetic.  A division by zero gives infinity or NaN in the code; the tests that follow each division (for example L1504-1526, L1574-1596, L1659-1681) then stop
  the iteration.  In the model such a division stops the iteration.
* One process: distributed vectors are modelled in `Verif.OrderInfo`, here a vector is the global vector.
* The random vector added to the shadow residual (`PERTURBATE_RTILDE`) is arbitrary.
* `BCGSL_solver`: the coefficients `gamma` of the polynomial step, computed by a pseudo-inverse (L972-1010), are arbitrary.
* Messages and verbosity are not modelled.
-/

namespace Verif.Krylov

/-- Vectors. -/
abbrev Vec (n : Nat) := Fin n → ℝ

/-- Scalar products, for example L1485-1488. -/
def dot {n : Nat} (a b : Vec n) : ℝ := ∑ k, a k * b k

/-- The length computed from the scalar product, L1373-1377. -/
noncomputable def norm {n : Nat} (a : Vec n) : ℝ := Real.sqrt (dot a a)

/-- `1.0e-50` -/
noncomputable def tiny : ℝ := 1 / 10 ^ 50

/-- `1.0e+100` -/
noncomputable def huge : ℝ := 10 ^ 100

/-- `1.0e-100` -/
noncomputable def tiniest : ℝ := 1 / 10 ^ 100

/-- A division whose result is tested for infinity, NaN and size: `none` if the iteration stops. -/
noncomputable def quot (a b : ℝ) : Option ℝ := if b = 0 then none else if |a / b| > huge then none else some (a / b)

/-- The system and the parameters of a solver. -/
structure Problem (n : Nat) where
  A : Matrix (Fin n) (Fin n) ℝ
  b : Vec n
  x0 : Vec n
  /-- the preconditioner, `NULL` or a method -/
  prec : Option (Vec n → Vec n)
  atol : ℝ
  rtol : ℝ
  divtol : ℝ
  maxits : Nat

/-- The variables of `BCGS_solver::Solve`. -/
structure St (n : Nat) where
  x : Vec n
  r : Vec n
  r0 : Vec n
  p : Vec n
  v : Vec n
  y : Vec n
  z : Vec n
  rho : ℝ
  alpha : ℝ
  omega : ℝ
  lastResid : ℝ
  i : Nat
  halt : Bool

/-- The initial residual, L1360-1377. -/
noncomputable def resid0 {n : Nat} (P : Problem n) : ℝ := norm (P.b - P.A.mulVec P.x0)

/-- The test for success, L1395, L1793: `last_resid < atol || last_resid < rtol*resid0`. -/
def Small {n : Nat} (P : Problem n) (res : ℝ) : Prop := res < P.atol ∨ res < P.rtol * resid0 P

open Classical in
/-- L1341-1399.  (If the initial residual is zero and this is not sufficient, `r0` is NaN and the first iteration stops at L1516.)  The members `y` and `z`
are prepared with zeros, L1286-1289. -/
noncomputable def St.init {n : Nat} (P : Problem n) : St n :=
  let r := P.b - P.A.mulVec P.x0
  { x := P.x0, r := r, r0 := (1 / resid0 P) • r, p := 0, v := 0, y := 0, z := 0, rho := 1, alpha := 1, omega := 1, lastResid := resid0 P, i := 0,
    halt := decide (Small P (resid0 P) ∨ resid0 P = 0) }

/-- The preconditioner followed by the multiplication with the matrix, L1537-1548 and L1606-1617: the vector passed to the matrix is kept in `y` or `z` only if there is a
preconditioner. -/
def apply {n : Nat} (P : Problem n) (p old : Vec n) : Vec n × Vec n :=
  match P.prec with
  | some f => (f p, P.A.mulVec (f p))
  | none => (old, P.A.mulVec p)

open Classical in
/-- The end of an iteration, L1683-1786. -/
noncomputable def update {n : Nat} (P : Problem n) (s : St n) (sv t z : Vec n) (omega : ℝ) : St n :=
  let x := s.x + (s.alpha • s.y + omega • z)
  let r := sv - omega • t
  let resid := norm r
  { s with
    x := x, r := r, z := z, omega := omega, lastResid := resid, i := s.i + 1,
    halt := decide (resid > P.divtol ∨ Small P resid ∨ s.i = P.maxits) }

open Classical in
/-- The second half of an iteration, L1601-1681: `s = r - alpha v`, `omega`. -/
noncomputable def second {n : Nat} (P : Problem n) (s : St n) : St n :=
  let sv := s.r - s.alpha • s.v
  let zt := apply P sv s.z
  let omega? := if dot zt.2 sv = 0 then some 0 else quot (dot zt.2 sv) (tiniest + dot zt.2 zt.2)
  match omega? with
  | none => { s with z := zt.1, halt := true }
  | some omega => update P s sv zt.2 zt.1 omega

open Classical in
/-- The middle of an iteration, L1532-1596: `p`, `v`, `alpha`. -/
noncomputable def first {n : Nat} (P : Problem n) (s : St n) (beta : ℝ) : St n :=
  let p := s.r + beta • (s.p - s.omega • s.v)
  let yv := apply P p s.y
  match quot s.rho (dot s.r0 yv.2) with
  | none => { s with p := p, y := yv.1, v := yv.2, halt := true }
  | some alpha => second P { s with p := p, y := yv.1, v := yv.2, alpha := alpha }

open Classical in
/-- One pass of the loop, L1406-1788; `o` is the perturbed vector `r0`. -/
noncomputable def iter {n : Nat} (P : Problem n) (o : Vec n) (s : St n) : St n :=
  let rho1 := dot s.r0 s.r
  if |rho1| < tiny then { s with r0 := o }
  else match quot (1 / s.rho * s.alpha * rho1) s.omega with
    | none => { s with rho := rho1, halt := true }
    | some beta => first P { s with rho := rho1 } beta

/-- The states of the loop. -/
inductive Reach {n : Nat} (P : Problem n) : St n → Prop
  | init : Reach P (St.init P)
  | step (s : St n) (o : Vec n) : Reach P s → s.halt = false → Reach P (iter P o s)

/-! ### BiCGStab(l) -/

/-- The variables of `BCGSL_solver::Solve`, L573-1227. -/
structure LSt (n : Nat) where
  x : Vec n
  rt : Vec n
  u : Nat → Vec n
  r : Nat → Vec n
  rho0 : ℝ
  alpha : ℝ
  omega : ℝ
  lastResid : ℝ
  /-- the number of the step in the block -/
  j : Nat
  /-- `last_it` -/
  its : Nat
  halt : Bool

/-- `ApplyOperator`, L558-572. -/
def op {n : Nat} (P : Problem n) (v : Vec n) : Vec n :=
  match P.prec with
  | some f => P.A.mulVec (f v)
  | none => P.A.mulVec v

open Classical in
/-- L577-637, and `rho0 = -omega*rho0` of the first pass (L651). -/
noncomputable def LSt.init {n : Nat} (P : Problem n) : LSt n :=
  let r := P.b - P.A.mulVec P.x0
  { x := 0, rt := (1 / resid0 P) • r, u := fun _ => 0, r := fun k => if k = 0 then r else 0, rho0 := -1, alpha := 0, omega := 1, lastResid := resid0 P, j := 0,
    its := 0, halt := decide (Small P (resid0 P) ∨ resid0 P = 0) }

/-- The search directions, L760-767. -/
def updU {n : Nat} (s : LSt n) (beta : ℝ) : Nat → Vec n := fun m => if m < s.j + 1 then s.r m - beta • s.u m else s.u m

/-- The result of `ApplyOperator(u[j],u[j+1])` is stored. -/
def setV {n : Nat} (u : Nat → Vec n) (k : Nat) (v : Vec n) : Nat → Vec n := fun m => if m = k then v else u m

open Classical in
/-- The end of a step, L817-862. -/
noncomputable def lupdate {n : Nat} (P : Problem n) (s : LSt n) (alpha : ℝ) : LSt n :=
  let r : Nat → Vec n := fun m => if m < s.j + 1 then s.r m - alpha • s.u (m + 1) else s.r m
  let resid := norm (r 0)
  let s' := { s with x := s.x + alpha • s.u 0, r := r, alpha := alpha, its := s.its + 1 }
  if Small P resid then { s' with lastResid := resid, halt := true }
  else { s' with r := setV r (s.j + 1) (op P (r s.j)), j := s.j + 1 }

open Classical in
/-- One step of the first part, L655-863 with the jumps to `perturbate`; `o` is the perturbed shadow residual. -/
noncomputable def lstep {n : Nat} (P : Problem n) (o : Vec n) (s : LSt n) : LSt n :=
  let rho1 := dot (s.r s.j) s.rt
  if |rho1| < tiny then { s with rt := o }
  else match quot (s.alpha * rho1) s.rho0 with
    | none => { s with halt := true }
    | some beta =>
      let u := updU s beta
      let u := setV u (s.j + 1) (op P (u s.j))
      let s := { s with rho0 := rho1, u := u }
      let eta := dot (u (s.j + 1)) s.rt
      if |eta| < tiny then { s with rt := o }
      else match quot rho1 eta with
        | none => { s with halt := true }
        | some alpha => lupdate P s alpha

/-- The loop L1065-1076 of the polynomial part, for `j = 1, …, l`; the arguments are the current `u[0]`, `SOL`, `r[0]`. -/
def polyLoop {n : Nat} (s : LSt n) (gamma : Nat → ℝ) : Nat → Vec n × Vec n × Vec n
  | 0 => (s.u 0, s.x, s.r 0)
  | j + 1 =>
    let w := polyLoop s gamma j
    (w.1 - gamma j • s.u (j + 1), w.2.1 + gamma j • (if j = 0 then w.2.2 else s.r j), w.2.2 - gamma j • s.r (j + 1))

open Classical in
/-- The polynomial part, L866-1207: the scalar products are too large (`stop`), or `gamma` is used; `rho0 = -omega*rho0` of the next pass is included. -/
noncomputable def poly {n : Nat} (P : Problem n) (l : Nat) (gamma : Nat → ℝ) (s : LSt n) : LSt n :=
  if (∃ j m, 1 ≤ m ∧ m ≤ j ∧ j ≤ l ∧ |dot (s.r j) (s.r m)| > huge) ∨ (∃ j, 1 ≤ j ∧ j ≤ l ∧ |dot (s.r 0) (s.r j)| > huge) then { s with halt := true }
  else if |gamma (l - 1)| > huge then { s with omega := gamma (l - 1), halt := true }
  else
    let w := polyLoop s gamma l
    let resid := norm w.2.2
    { s with
      u := setV s.u 0 w.1, x := w.2.1, r := setV s.r 0 w.2.2, omega := gamma (l - 1), lastResid := resid, j := 0, rho0 := -gamma (l - 1) * s.rho0,
      halt := decide (Small P resid ∨ resid > P.divtol ∨ s.its ≥ P.maxits) }

/-- The states of the loops. -/
inductive LReach {n : Nat} (P : Problem n) (l : Nat) : LSt n → Prop
  | init : LReach P l (LSt.init P)
  | step (s : LSt n) (o : Vec n) : LReach P l s → s.halt = false → s.j < l → LReach P l (lstep P o s)
  | poly (s : LSt n) (gamma : Nat → ℝ) : LReach P l s → s.halt = false → s.j = l → LReach P l (poly P l gamma s)

/-- The solution returned by `Solve`, L1211-1221: the right preconditioner and the shift are undone. -/
def lresult {n : Nat} (P : Problem n) (s : LSt n) : Vec n :=
  match P.prec with
  | some f => f s.x + P.x0
  | none => s.x + P.x0

end Verif.Krylov
