import Verif.Autodiff.Model
import Verif.Sparse.RowSpec
import Mathlib.Analysis.Calculus.Deriv.Basic

/-!
# Specification of automatic differentiation

An expression denotes a function of the independent variables `x 0, x 1, ...`; a row represents its
gradient.
-/

namespace Verif.Autodiff

open Verif.Sparse

/-- The scalar product of a row with a vector. -/
noncomputable def dot (r : Row ℝ) (v : Nat → ℝ) : ℝ := (r.map fun e => e.2 * v e.1).sum

/-- The row `r` is the derivative of `g` at `x`: along every differentiable curve through `x` the derivative of
`g` is the scalar product of `r` with the velocity. -/
def HasGradient (g : (Nat → ℝ) → ℝ) (x : Nat → ℝ) (r : Row ℝ) : Prop :=
  ∀ (γ : ℝ → Nat → ℝ) (v : Nat → ℝ) (t0 : ℝ), γ t0 = x → (∀ i, HasDerivAt (fun t => γ t i) (v i) t0) →
    HasDerivAt (fun t => g (γ t)) (dot r v) t0

/-- The function denoted by an expression; `G k` is the function that the variable `k` stands for. -/
noncomputable def den (G : Nat → (Nat → ℝ) → ℝ) : Expr → (Nat → ℝ) → ℝ
  | .const c, _ => c
  | .var v none, _ => v
  | .var _ (some i), x => x i
  | .mvar k, x => G k x
  | .constMul e c, x => c * den G e x
  | .variation e _, x => den G e x
  | .constDiv e c, x => den G e x / c
  | .constAdd e c, x => den G e x + c
  | .constSub e c, x => c - den G e x
  | .recip e c, x => c / den G e x
  | .neg e, x => -den G e x
  | .pos e, x => den G e x
  | .abs e, x => |den G e x|
  | .exp e, x => Real.exp (den G e x)
  | .log e, x => Real.log (den G e x)
  | .sin e, x => Real.sin (den G e x)
  | .cos e, x => Real.cos (den G e x)
  | .sqrt e, x => Real.sqrt (den G e x)
  | .softAbs e tol, x => Real.sqrt (den G e x ^ 2 + tol ^ 2)
  | .softSign e tol, x => den G e x / Real.sqrt (den G e x ^ 2 + tol ^ 2)
  | .softMax l r tol, x => (den G l x + den G r x + Real.sqrt ((den G l x - den G r x) ^ 2 + tol ^ 2)) / 2
  | .softMin l r tol, x => (den G l x + den G r x - Real.sqrt ((den G l x - den G r x) ^ 2 + tol ^ 2)) / 2
  | .mul l r, x => den G l x * den G r x
  | .div l r, x => den G l x / den G r x
  | .add l r, x => den G l x + den G r x
  | .sub l r, x => den G l x - den G r x
  | .pow l r, x => den G l x ^ den G r x
  | .atan2 l r, x => Complex.arg ⟨den G r x, den G l x⟩
  | .powConst e c, x => den G e x ^ c
  | .constPow c e, x => c ^ den G e x
  | .cond c l r, x => if den G c x ≥ 0 then den G l x else den G r x
  | .branch b l r, x => if b then den G l x else den G r x
  | .func e f _, x => f (den G e x)

/-- The expression is used at a point where it is defined and differentiable, and its independent variables carry
the values of `x`. -/
def Regular (G : Nat → (Nat → ℝ) → ℝ) (x : Nat → ℝ) : Expr → Prop
  | .const _ => True
  | .var _ none => True
  | .var v (some i) => v = x i
  | .mvar _ => True
  | .constMul e _ => Regular G x e
  | .variation e c => c = 1 ∧ Regular G x e
  | .constDiv e c => c ≠ 0 ∧ Regular G x e
  | .constAdd e _ => Regular G x e
  | .constSub e _ => Regular G x e
  | .recip e _ => den G e x ≠ 0 ∧ Regular G x e
  | .neg e => Regular G x e
  | .pos e => Regular G x e
  | .abs e => den G e x ≠ 0 ∧ Regular G x e
  | .exp e => Regular G x e
  | .log e => 0 < den G e x ∧ Regular G x e
  | .sin e => Regular G x e
  | .cos e => Regular G x e
  | .sqrt e => 0 < den G e x ∧ Regular G x e
  | .softAbs e tol => (den G e x ≠ 0 ∨ tol ≠ 0) ∧ Regular G x e
  | .softSign e tol => (den G e x ≠ 0 ∨ tol ≠ 0) ∧ Regular G x e
  | .softMax l r tol => (den G l x ≠ den G r x ∨ tol ≠ 0) ∧ Regular G x l ∧ Regular G x r
  | .softMin l r tol => (den G l x ≠ den G r x ∨ tol ≠ 0) ∧ Regular G x l ∧ Regular G x r
  | .mul l r => Regular G x l ∧ Regular G x r
  | .div l r => den G r x ≠ 0 ∧ Regular G x l ∧ Regular G x r
  | .add l r => Regular G x l ∧ Regular G x r
  | .sub l r => Regular G x l ∧ Regular G x r
  | .pow l r => 0 < den G l x ∧ Regular G x l ∧ Regular G x r
  | .atan2 l r => (0 < den G r x ∨ den G l x ≠ 0) ∧ Regular G x l ∧ Regular G x r
  | .powConst e c =>
    (0 < den G e x ∨ (den G e x ≠ 0 ∧ ∃ n : ℤ, c = n) ∨ ∃ n : ℕ, n ≠ 1 ∧ c = n) ∧ Regular G x e
  | .constPow c e => 0 < c ∧ Regular G x e
  | .cond c l r => den G c x ≠ 0 ∧ Regular G x c ∧ (0 ≤ den G c x → Regular G x l) ∧ (den G c x < 0 → Regular G x r)
  | .branch b l r => if b then Regular G x l else Regular G x r
  | .func e f f' => HasDerivAt f (f' (den G e x)) (den G e x) ∧ Regular G x e

/-- The variable `k` is a direct operand of a product in the expression. -/
def MulOperand (k : Nat) : Expr → Prop
  | .const _ => False
  | .var _ _ => False
  | .mvar _ => False
  | .constMul e _ => MulOperand k e
  | .variation e _ => MulOperand k e
  | .constDiv e _ => MulOperand k e
  | .constAdd e _ => MulOperand k e
  | .constSub e _ => MulOperand k e
  | .recip e _ => MulOperand k e
  | .neg e => MulOperand k e
  | .pos e => MulOperand k e
  | .abs e => MulOperand k e
  | .exp e => MulOperand k e
  | .log e => MulOperand k e
  | .sin e => MulOperand k e
  | .cos e => MulOperand k e
  | .sqrt e => MulOperand k e
  | .softAbs e _ => MulOperand k e
  | .softSign e _ => MulOperand k e
  | .softMax l r _ => MulOperand k l ∨ MulOperand k r
  | .softMin l r _ => MulOperand k l ∨ MulOperand k r
  | .mul l r => l = .mvar k ∨ r = .mvar k ∨ MulOperand k l ∨ MulOperand k r
  | .div l r => MulOperand k l ∨ MulOperand k r
  | .add l r => MulOperand k l ∨ MulOperand k r
  | .sub l r => MulOperand k l ∨ MulOperand k r
  | .pow l r => MulOperand k l ∨ MulOperand k r
  | .atan2 l r => MulOperand k l ∨ MulOperand k r
  | .powConst e _ => MulOperand k e
  | .constPow _ e => MulOperand k e
  | .cond c l r => MulOperand k c ∨ MulOperand k l ∨ MulOperand k r
  | .branch _ l r => MulOperand k l ∨ MulOperand k r
  | .func e _ _ => MulOperand k e

/-- Change of the meaning of one variable. -/
def setFun (G : Nat → (Nat → ℝ) → ℝ) (k : Nat) (g : (Nat → ℝ) → ℝ) : Nat → (Nat → ℝ) → ℝ :=
  fun j => if j = k then g else G j

/-- The meaning of a statement: how the functions of the variables change. -/
noncomputable def denStmt (G : Nat → (Nat → ℝ) → ℝ) : Stmt → Nat → (Nat → ℝ) → ℝ
  | .assign k e => setFun G k (den G e)
  | .assignRef k e => setFun G k (den G e)
  | .assignConst k c => setFun G k fun _ => c
  | .addAssign k e => setFun G k fun x => G k x + den G e x
  | .subAssign k e => setFun G k fun x => G k x - den G e x
  | .mulAssign k e => setFun G k fun x => G k x * den G e x
  | .divAssign k e => setFun G k fun x => G k x / den G e x
  | .addConst k c => setFun G k fun x => G k x + c
  | .subConst k c => setFun G k fun x => G k x - c
  | .mulConst k c => setFun G k fun x => G k x * c
  | .divConst k c => setFun G k fun x => G k x / c

/-- Statements executed at regular points; a variable that changes its value before derivatives are gathered must
not be an operand of a product in the same statement. -/
def RegularStmt (G : Nat → (Nat → ℝ) → ℝ) (x : Nat → ℝ) : Stmt → Prop
  | .assign _ e => Regular G x e
  | .assignRef k e => Regular G x e ∧ ¬ MulOperand k e
  | .assignConst _ _ => True
  | .addAssign k e => Regular G x e ∧ ¬ MulOperand k e
  | .subAssign k e => Regular G x e ∧ ¬ MulOperand k e
  | .mulAssign _ e => Regular G x e
  | .divAssign k e => Regular G x e ∧ ¬ MulOperand k e ∧ den G e x ≠ 0
  | .addConst _ _ => True
  | .subConst _ _ => True
  | .mulConst _ _ => True
  | .divConst _ c => c ≠ 0

/-- A program all of whose statements are regular when they are executed. -/
def RegularProg (x : Nat → ℝ) : (Nat → (Nat → ℝ) → ℝ) → List Stmt → Prop
  | _, [] => True
  | G, c :: cs => RegularStmt G x c ∧ RegularProg x (denStmt G c) cs

/-- The variables represent the functions `G` at the point `x`: values, gradients, one entry per column. -/
def Represents (s : Store) (G : Nat → (Nat → ℝ) → ℝ) (x : Nat → ℝ) : Prop :=
  ∀ k, (s k).value = G k x ∧ HasGradient (G k) x (s k).entries ∧ Distinct (s k).entries

end Verif.Autodiff
