import Verif.Autodiff.HessModel
import Verif.Autodiff.Spec

/-!
# Specification of second derivatives

A row of second derivatives represents a quadratic form: the second derivative of the function along
each straight line.
-/

namespace Verif.Autodiff

open Verif.Sparse

/-- The quadratic form of a Hessian row: `Σ h(i,j) v i v j`.  Each pair `i ≤ j` is stored once, so an entry with `i < j` is
twice the mixed derivative. -/
noncomputable def quad (H : HRow) (v : Nat → ℝ) : ℝ :=
  (H.map fun e => e.2 * (v (ofLex e.1).1 * v (ofLex e.1).2)).sum

/-- The straight line through `x` with direction `v`. -/
def line (x v : Nat → ℝ) (t : ℝ) : Nat → ℝ := fun i => x i + t * v i

/-- `J` and `H` are the first and the second derivative of `g` at `x`: along every line through `x` the function is
differentiable near `x` with a derivative `φ`, the value of `φ` at `x` is `J·v`, and the derivative of `φ` there is the
quadratic form of `H`. -/
def Second (g : (Nat → ℝ) → ℝ) (x : Nat → ℝ) (J : Row ℝ) (H : HRow) : Prop :=
  ∀ v, ∃ φ : ℝ → ℝ, (∀ᶠ t in nhds 0, HasDerivAt (fun t => g (line x v t)) (φ t) t) ∧ φ 0 = dot J v ∧
    HasDerivAt φ (quad H v) 0

/-- The expression contains an unknown whose derivative is stored; `d` says which variables have stored derivatives. -/
def HasDeriv (G : Nat → (Nat → ℝ) → ℝ) (x : Nat → ℝ) (d : Nat → Prop) : Expr → Prop
  | .const _ => False
  | .var _ i => i ≠ none
  | .mvar k => d k
  | .constMul e _ => HasDeriv G x d e
  | .variation e _ => HasDeriv G x d e
  | .constDiv e _ => HasDeriv G x d e
  | .constAdd e _ => HasDeriv G x d e
  | .constSub e _ => HasDeriv G x d e
  | .recip e _ => HasDeriv G x d e
  | .neg e => HasDeriv G x d e
  | .pos e => HasDeriv G x d e
  | .abs e => HasDeriv G x d e
  | .exp e => HasDeriv G x d e
  | .log e => HasDeriv G x d e
  | .sin e => HasDeriv G x d e
  | .cos e => HasDeriv G x d e
  | .sqrt e => HasDeriv G x d e
  | .softAbs e _ => HasDeriv G x d e
  | .softSign e _ => HasDeriv G x d e
  | .softMax l r _ => HasDeriv G x d l ∨ HasDeriv G x d r
  | .softMin l r _ => HasDeriv G x d l ∨ HasDeriv G x d r
  | .mul l r => HasDeriv G x d l ∨ HasDeriv G x d r
  | .div l r => HasDeriv G x d l ∨ HasDeriv G x d r
  | .add l r => HasDeriv G x d l ∨ HasDeriv G x d r
  | .sub l r => HasDeriv G x d l ∨ HasDeriv G x d r
  | .pow l r => HasDeriv G x d l ∨ HasDeriv G x d r
  | .atan2 l r => HasDeriv G x d l ∨ HasDeriv G x d r
  | .powConst e _ => HasDeriv G x d e
  | .constPow _ e => HasDeriv G x d e
  | .cond c l r => (0 ≤ den G c x ∧ HasDeriv G x d l) ∨ (den G c x < 0 ∧ HasDeriv G x d r)
  | .branch b l r => (b = true ∧ HasDeriv G x d l) ∨ (b = false ∧ HasDeriv G x d r)
  | .func e _ _ => HasDeriv G x d e

/-- Expressions whose second derivatives the code computes, at points where they exist.  `mJ` and `mH` are the
multipliers with which derivatives of the expression are requested; they matter for `exp` and `log`, which
are right only if `mH = |mJ|`.  A product must not have a factor without derivatives unless both have none. -/
def Regular2 (G : Nat → (Nat → ℝ) → ℝ) (x : Nat → ℝ) (d : Nat → Prop) : ℝ → ℝ → Expr → Prop
  | _, _, .const _ => True
  | _, _, .var _ none => True
  | _, _, .var v (some i) => v = x i
  | _, _, .mvar _ => True
  | mJ, mH, .constMul e c => Regular2 G x d (mJ * c) (mH * c) e
  | mJ, mH, .variation e c => c = 1 ∧ Regular2 G x d mJ mH e
  | mJ, mH, .constDiv e c => c ≠ 0 ∧ Regular2 G x d (mJ / c) (mH / c) e
  | mJ, mH, .constAdd e _ => Regular2 G x d mJ mH e
  | mJ, mH, .constSub e _ => Regular2 G x d (-mJ) (-mH) e
  | _, _, .recip _ _ => False
  | mJ, mH, .neg e => Regular2 G x d (-mJ) (-mH) e
  | mJ, mH, .pos e => Regular2 G x d mJ mH e
  | mJ, mH, .abs e =>
    (0 < den G e x ∧ Regular2 G x d mJ mH e) ∨ (den G e x < 0 ∧ Regular2 G x d (-mJ) (-mH) e)
  | mJ, mH, .exp e =>
    mH = |mJ| ∧ Regular2 G x d (if mJ < 0 then -1 else 1) (mH * Real.exp (den G e x)) e
  | mJ, mH, .log e =>
    mH = |mJ| ∧ 0 < den G e x ∧ ∃ i, e = .var (x i) (some i)
  | _, _, .sin e => Regular2 G x d 1 1 e
  | _, _, .cos e => Regular2 G x d 1 1 e
  | _, _, .sqrt e => 0 < den G e x ∧ Regular2 G x d 1 1 e
  | _, _, .softAbs _ _ => False
  | _, _, .softSign _ _ => False
  | _, _, .softMax _ _ _ => False
  | _, _, .softMin _ _ _ => False
  | _, _, .mul l r =>
    (HasDeriv G x d l ↔ HasDeriv G x d r) ∧ Regular2 G x d 1 1 l ∧ Regular2 G x d 1 1 r
  | _, _, .div _ _ => False
  | _, _, .add l r => Regular2 G x d 1 1 l ∧ Regular2 G x d 1 1 r
  | _, _, .sub l r => Regular2 G x d 1 1 l ∧ Regular2 G x d 1 1 r
  | _, _, .pow _ _ => False
  | _, _, .atan2 _ _ => False
  | _, _, .powConst _ _ => False
  | _, _, .constPow _ _ => False
  | mJ, mH, .cond c l r =>
    Regular G x c ∧ (∀ v, ContinuousAt (fun t => den G c (line x v t)) 0) ∧
      ((0 < den G c x ∧ Regular2 G x d mJ mH l) ∨ (den G c x < 0 ∧ Regular2 G x d mJ mH r))
  | mJ, mH, .branch b l r => if b then Regular2 G x d mJ mH l else Regular2 G x d mJ mH r
  | _, _, .func _ _ _ => False

/-- The variables represent the functions `G` at `x` up to second order, with sorted rows. -/
def Represents2 (s : HStore) (G : Nat → (Nat → ℝ) → ℝ) (x : Nat → ℝ) : Prop :=
  ∀ k, (s k).value = G k x ∧ Second (G k) x (s k).entries (s k).hess ∧
    StrictlySorted (s k).entries ∧ StrictlySorted (s k).hess

/-- The meaning of a statement. -/
noncomputable def hden (G : Nat → (Nat → ℝ) → ℝ) : HStmt → Nat → (Nat → ℝ) → ℝ
  | .assign k e => setFun G k (den G e)
  | .assignRef k e => setFun G k (den G e)
  | .assignConst k c => setFun G k fun _ => c
  | .addAssign k e => setFun G k fun x => G k x + den G e x
  | .subAssign k e => setFun G k fun x => G k x - den G e x
  | .addConst k c => setFun G k fun x => G k x + c
  | .subConst k c => setFun G k fun x => G k x - c
  | .mulConst k c => setFun G k fun x => G k x * c
  | .divConst k c => setFun G k fun x => G k x / c

/-- Which statements are covered; `d` says which variables have stored first derivatives. -/
def HRegularStmt (G : Nat → (Nat → ℝ) → ℝ) (x : Nat → ℝ) (d : Nat → Prop) : HStmt → Prop
  | .assign _ e => Regular2 G x d 1 1 e
  | .assignRef k e => Regular2 G x d 1 1 e ∧ ¬ MulOperand k e
  | .assignConst _ _ => True
  | .addAssign k e => Regular2 G x d 1 1 e ∧ ¬ MulOperand k e
  | .subAssign k e => Regular2 G x d 1 1 e ∧ ¬ MulOperand k e
  | .addConst _ _ => True
  | .subConst _ _ => True
  | .mulConst _ _ => True
  | .divConst _ c => c ≠ 0

/-- Which variables have stored first derivatives after a statement. -/
def derivs (G : Nat → (Nat → ℝ) → ℝ) (x : Nat → ℝ) (d : Nat → Prop) : HStmt → Nat → Prop
  | .assign k e => fun j => if j = k then HasDeriv G x d e else d j
  | .assignRef k e => fun j => if j = k then HasDeriv G x d e else d j
  | .assignConst k _ => fun j => if j = k then False else d j
  | .addAssign k e => fun j => if j = k then d k ∨ HasDeriv G x d e else d j
  | .subAssign k e => fun j => if j = k then d k ∨ HasDeriv G x d e else d j
  | _ => d

/-- A program all of whose statements are covered when they are executed. -/
def HRegularProg (x : Nat → ℝ) : (Nat → (Nat → ℝ) → ℝ) → (Nat → Prop) → List HStmt → Prop
  | _, _, [] => True
  | G, d, c :: cs => HRegularStmt G x d c ∧ HRegularProg x (hden G c) (derivs G x d c) cs

end Verif.Autodiff
