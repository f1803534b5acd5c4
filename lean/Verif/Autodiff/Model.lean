import Verif.Sparse.MergerModel
import Mathlib.Analysis.SpecialFunctions.Pow.Real
import Mathlib.Analysis.SpecialFunctions.Complex.Arg

/-!
# Model of expressions of automatic differentiation

Models `/repo/Source/Headers/inmost_expression.h`: the expression classes with `GetValue` and `GetJacobian`,
the assignments of `multivar_expression` and of `multivar_expression_reference`, and
`/repo/Source/Autodiff/autodiff.cpp` L43-67 (`FromBasicExpression`, `AddBasicExpression`, `FromGetJacobian`).

Simplifications: arithmetic is that of the real numbers, and the functions of `<cmath>` are the mathematical
functions (where those are undefined the theorems ask for more); `atan2(y, x)` is the argument of `x + iy`.
Expression objects live for one full expression, as in `x = a * b + c`; copies of expression objects are not
modelled.
-/

namespace Verif.Autodiff

open Verif.Sparse

/-- The data of `multivar_expression`, inmost_expression.h L135-138. -/
structure MVar where
  value : ℝ
  entries : Row ℝ

/-- The variables of a program, `k` being the name of a variable. -/
abbrev Store := Nat → MVar

/-- Expression trees; the constructors are the classes of inmost_expression.h. -/
inductive Expr where
  /-- `const_expression`, L72-88 -/
  | const (c : ℝ)
  /-- `var_expression`, L91-127; no index is `ENUMUNDEF` -/
  | var (v : ℝ) (i : Option Nat)
  /-- a reference to the variable `k` (`multivar_expression` or `multivar_expression_reference`) -/
  | mvar (k : Nat)
  /-- `const_multiplication_expression`, L1151-1175 -/
  | constMul (e : Expr) (c : ℝ)
  /-- `variation_multiplication_expression`, L1178-1202 -/
  | variation (e : Expr) (c : ℝ)
  /-- `const_division_expression`, L1206-1231: `e / c` -/
  | constDiv (e : Expr) (c : ℝ)
  /-- `const_addition_expression`, L1234-1258 -/
  | constAdd (e : Expr) (c : ℝ)
  /-- `const_subtraction_expression`, L1261-1285: `c - e` -/
  | constSub (e : Expr) (c : ℝ)
  /-- `reciprocal_expression`, L1290-1322: `c / e` -/
  | recip (e : Expr) (c : ℝ)
  /-- `unary_minus_expression`, L1325-1346 -/
  | neg (e : Expr)
  /-- `unary_plus_expression`, L1349-1370 -/
  | pos (e : Expr)
  /-- `abs_expression`, L1373-1401 -/
  | abs (e : Expr)
  /-- `exp_expression`, L1405-1435 -/
  | exp (e : Expr)
  /-- `log_expression`, L1438-1469 -/
  | log (e : Expr)
  /-- `sin_expression`, L1473-1505 -/
  | sin (e : Expr)
  /-- `cos_expression`, L1508-1538 -/
  | cos (e : Expr)
  /-- `sqrt_expression`, L1541-1574 -/
  | sqrt (e : Expr)
  /-- `soft_abs_expression`, L1578-1605 -/
  | softAbs (e : Expr) (tol : ℝ)
  /-- `soft_sign_expression`, L1608-1637 -/
  | softSign (e : Expr) (tol : ℝ)
  /-- `soft_max_expression`, L1640-1675 -/
  | softMax (l r : Expr) (tol : ℝ)
  /-- `soft_min_expression`, L1678-1712 -/
  | softMin (l r : Expr) (tol : ℝ)
  /-- `multiplication_expression`, L1716-1763 -/
  | mul (l r : Expr)
  /-- `division_expression`, L1766-1818 -/
  | div (l r : Expr)
  /-- `addition_expression`, L1821-1861 -/
  | add (l r : Expr)
  /-- `subtraction_expression`, L1864-1899 -/
  | sub (l r : Expr)
  /-- `pow_expression`, L1902-1945 -/
  | pow (l r : Expr)
  /-- `atan2_expression`, L1949-1984 -/
  | atan2 (l r : Expr)
  /-- `pow_const_expression`, L1987-2028 -/
  | powConst (e : Expr) (c : ℝ)
  /-- `const_pow_expression`, L2031-2062 -/
  | constPow (c : ℝ) (e : Expr)
  /-- `condition_expression`, L2065-2105 -/
  | cond (c l r : Expr)
  /-- `branch_expression`, L2108-2156 -/
  | branch (b : Bool) (l r : Expr)
  /-- `function_expression`, L2160-2200, constructed with `pvalue = f(arg)` and `pdmult = f'(arg)`; this is how tables
  enter expressions (`get_table`) -/
  | func (e : Expr) (f f' : ℝ → ℝ)

/-- `GetValue` of a newly constructed expression: all classes compute their value in the constructor. -/
noncomputable def value (s : Store) : Expr → ℝ
  | .const c => c
  | .var v _ => v
  | .mvar k => (s k).value
  | .constMul e c => value s e * c
  | .variation e _ => value s e
  | .constDiv e c => value s e * (1 / c)
  | .constAdd e c => value s e + c
  | .constSub e c => c - value s e
  | .recip e c => c * (1 / value s e)
  | .neg e => -value s e
  | .pos e => value s e
  | .abs e => |value s e|
  | .exp e => Real.exp (value s e)
  | .log e => Real.log (value s e)
  | .sin e => Real.sin (value s e)
  | .cos e => Real.cos (value s e)
  | .sqrt e => Real.sqrt (value s e)
  | .softAbs e tol => Real.sqrt (value s e * value s e + tol * tol)
  | .softSign e tol => value s e / Real.sqrt (value s e * value s e + tol * tol)
  | .softMax l r tol =>
    0.5 * (value s l + value s r + Real.sqrt ((value s l - value s r) * (value s l - value s r) + tol * tol))
  | .softMin l r tol =>
    0.5 * (value s l + value s r - Real.sqrt ((value s l - value s r) * (value s l - value s r) + tol * tol))
  | .mul l r => value s l * value s r
  | .div l r => if value s r ≠ 0 then value s l * (1 / value s r) else 0
  | .add l r => value s l + value s r
  | .sub l r => value s l - value s r
  | .pow l r => value s l ^ value s r
  | .atan2 l r => Complex.arg ⟨value s r, value s l⟩
  | .powConst e c => value s e ^ c
  | .constPow c e => c ^ value s e
  | .cond c l r => if value s c ≥ 0 then value s l else value s r
  | .branch b l r => if b then value s l else value s r
  | .func e f _ => f (value s e)

/-- `GetValue` of an operand at the time when derivatives are gathered: composite expressions return
the value stored at construction (store `s`), variables return their current value (store `s1`). -/
noncomputable def liveValue (s s1 : Store) : Expr → ℝ
  | .mvar k => (s1 k).value
  | e => value s e

/-- What the leaves of an expression do to the accumulated row: `r[i] += m`, or add `m` times a row. -/
inductive Contr where
  | inc (i : Nat) (m : ℝ)
  | row (m : ℝ) (r : Row ℝ)

/-- `GetJacobian(mult, r)`: the contributions to `r` in the order of execution.  Both overloads have the same
code in all classes but the leaves.  `s` is the store when the expression was constructed (values and
multipliers stored in expression objects), `s1` the store when `GetJacobian` is called. -/
noncomputable def contrib (s s1 : Store) : ℝ → Expr → List Contr
  | _, .const _ => []
  | m, .var _ i =>
    match i with
    | some i => if m ≠ 0 then [.inc i m] else []
    | none => []
  | m, .mvar k => [.row m (s1 k).entries]
  | m, .constMul e c => contrib s s1 (m * c) e
  | m, .variation e c => contrib s s1 (m * c) e
  | m, .constDiv e c => contrib s s1 (m * (1 / c)) e
  | m, .constAdd e _ => contrib s s1 m e
  | m, .constSub e _ => contrib s s1 (-m) e
  | m, .recip e c => contrib s s1 (-m * (c * (1 / value s e)) * (1 / value s e)) e
  | m, .neg e => contrib s s1 (-m) e
  | m, .pos e => contrib s s1 m e
  | m, .abs e =>
    contrib s s1 ((if |value s e| = 0 then (if m < 0 then -1 else 1) else 1) * m *
      (if value s e < 0 then -1 else 1)) e
  | m, .exp e => contrib s s1 (m * Real.exp (value s e)) e
  | m, .log e => contrib s s1 (m * (1 / value s e)) e
  | m, .sin e => contrib s s1 (m * Real.cos (value s e)) e
  | m, .cos e => contrib s s1 (m * (-Real.sin (value s e))) e
  | m, .sqrt e => if Real.sqrt (value s e) ≠ 0 then contrib s s1 (0.5 * m / Real.sqrt (value s e)) e else []
  | m, .softAbs e tol =>
    contrib s s1 (m * (value s e / Real.sqrt (value s e * value s e + tol * tol))) e
  | m, .softSign e tol =>
    contrib s s1 (m * ((1 - value s e * value s e / (value s e * value s e + tol * tol)) /
      Real.sqrt (value s e * value s e + tol * tol))) e
  | m, .softMax l r tol =>
    let diff := value s l - value s r
    let root := Real.sqrt (diff * diff + tol * tol)
    contrib s s1 (m * (0.5 * (1 + diff / root))) l ++ contrib s s1 (m * (0.5 * (1 - diff / root))) r
  | m, .softMin l r tol =>
    let diff := value s l - value s r
    let root := Real.sqrt (diff * diff + tol * tol)
    contrib s s1 (m * (0.5 * (1 - diff / root))) l ++ contrib s s1 (m * (0.5 * (1 + diff / root))) r
  | m, .mul l r => contrib s s1 (m * liveValue s s1 r) l ++ contrib s s1 (m * liveValue s s1 l) r
  | m, .div l r =>
    let rr := if value s r ≠ 0 then 1 / value s r else 0
    let v := if value s r ≠ 0 then value s l * (1 / value s r) else 0
    contrib s s1 (m * rr) l ++ contrib s s1 (-m * v * rr) r
  | m, .add l r => contrib s s1 m l ++ contrib s s1 m r
  | m, .sub l r => contrib s s1 m l ++ contrib s s1 (-m) r
  | m, .pow l r =>
    let v := value s l ^ value s r
    contrib s s1 (m * (if value s l ≠ 0 then v * value s r / value s l else 0)) l ++
      contrib s s1 (m * (if value s l ≠ 0 then v * Real.log (value s l) else 0)) r
  | m, .atan2 l r =>
    let d := value s r * value s r + value s l * value s l
    contrib s s1 (m * (value s r / d)) l ++ contrib s s1 (m * (-value s l / d)) r
  | m, .powConst e c =>
    contrib s s1 (m * (if value s e ≠ 0 then value s e ^ c * c / value s e else 0)) e
  | m, .constPow c e => contrib s s1 (m * (if c ≠ 0 then c ^ value s e * Real.log c else 0)) e
  | m, .cond c l r => if value s c ≥ 0 then contrib s s1 m l else contrib s s1 m r
  | m, .branch b l r => if b then contrib s s1 m l else contrib s s1 m r
  | m, .func e _ f' => contrib s s1 (m * f' (value s e)) e

/-- A contribution to a `Sparse::Row`: `r[index] += mult` (L104) and the loop of
`multivar_expression::GetJacobian` (L165-174). -/
noncomputable def applyRow (r : Row ℝ) : Contr → Row ℝ
  | .inc i m => access r i (· + m)
  | .row m es => es.foldl (fun r e => access r e.1 (· + e.2 * m)) r

/-- A contribution to a `Sparse::RowMerger`: `r[index] += mult` (L103) and `r.AddRow(mult, entries)` (L161). -/
noncomputable def toOp : Contr → MOp ℝ
  | .inc i m => .access i (· + m)
  | .row m es => .add m es

/-- `expr.GetJacobian(mult, r)` for a `Sparse::Row` when there is no current `Automatizator`. -/
noncomputable def jacRow (s s1 : Store) (mult : ℝ) (e : Expr) (r : Row ℝ) : Row ℝ :=
  (contrib s s1 mult e).foldl applyRow r

/-- `expr.GetJacobian(mult, merger)`. -/
noncomputable def jacMerger (s s1 : Store) (mult : ℝ) (e : Expr) (m : Merger ℝ) : Option (Merger ℝ) :=
  mrun m ((contrib s s1 mult e).map toOp)

/-- `merger.RetrieveRow(entries); merger.Clear();` -/
noncomputable def finish (m : Merger ℝ) : Option (Row ℝ × Merger ℝ) :=
  match m.retrieve, m.clear with
  | some r, some m' => some (r, m')
  | _, _ => none

/-- `FromBasicExpression`, autodiff.cpp L43-49. -/
noncomputable def fromBasicExpression (s s1 : Store) (e : Expr) (m : Merger ℝ) :
    Option (Row ℝ × Merger ℝ) :=
  (jacMerger s s1 1 e m).bind finish

/-- `AddBasicExpression`, autodiff.cpp L51-58. -/
noncomputable def addBasicExpression (s s1 : Store) (entries : Row ℝ) (multme multit : ℝ) (e : Expr)
    (m : Merger ℝ) : Option (Row ℝ × Merger ℝ) :=
  ((m.pushRow multme entries).bind (jacMerger s s1 multit e)).bind finish

/-- `FromGetJacobian`, autodiff.cpp L60-67. -/
noncomputable def fromGetJacobian (s s1 : Store) (e : Expr) (mult : ℝ) (r : Row ℝ) (m : Merger ℝ) :
    Option (Row ℝ × Merger ℝ) :=
  ((jacMerger s s1 mult e m).bind fun m => m.addRow 1 r).bind finish

/-- Statements on variables. -/
inductive Stmt where
  /-- `x = expr` for a `multivar_expression`: a temporary is constructed (L150-156) and copied (L189-194) -/
  | assign (k : Nat) (e : Expr)
  /-- `x = expr` for a `multivar_expression_reference`, L678-690 -/
  | assignRef (k : Nat) (e : Expr)
  /-- `x = c`, L183-188 and L671-676 -/
  | assignConst (k : Nat) (c : ℝ)
  /-- `x += expr`, L231-243 (reference: L709-721) -/
  | addAssign (k : Nat) (e : Expr)
  /-- `x -= expr`, L244-256 (reference: L722-734) -/
  | subAssign (k : Nat) (e : Expr)
  /-- `x *= expr`, L257-271 (reference: L735-749) -/
  | mulAssign (k : Nat) (e : Expr)
  /-- `x /= expr`, L272-287 (reference: L750-765) -/
  | divAssign (k : Nat) (e : Expr)
  /-- `x += c`, L288-292 -/
  | addConst (k : Nat) (c : ℝ)
  /-- `x -= c`, L293-297 -/
  | subConst (k : Nat) (c : ℝ)
  /-- `x *= c`, L298-303 -/
  | mulConst (k : Nat) (c : ℝ)
  /-- `x /= c`, L304-309 -/
  | divConst (k : Nat) (c : ℝ)

/-- Change of one variable. -/
def Store.set (s : Store) (k : Nat) (v : MVar) : Store := fun j => if j = k then v else s j

/-- Change of the value of one variable. -/
def Store.setValue (s : Store) (k : Nat) (v : ℝ) : Store := s.set k ⟨v, (s k).entries⟩

/-- The state of a program: variables, and the merger of the current `Automatizator` if there is one
(`CheckCurrentAutomatizator()`). -/
structure State where
  store : Store
  merger : Option (Merger ℝ)

/-- The compound assignments: `entries` becomes `multme * entries + multit * grad(expr)`; `s1` is the store at this
moment (the value of the variable may be changed already).  With an `Automatizator` this is `AddBasicExpression`,
otherwise a copy of the row is scaled and passed to `GetJacobian` (for `+=` and `-=` there is no
scaling, `scale` tells which). -/
noncomputable def combine (st : State) (s1 : Store) (k : Nat) (scale : Bool) (multme multit : ℝ) (e : Expr)
    (v : ℝ) : Option State :=
  match st.merger with
  | some m =>
    match addBasicExpression st.store s1 (s1 k).entries multme multit e m with
    | some (r, m') => some ⟨st.store.set k ⟨v, r⟩, some m'⟩
    | none => none
  | none =>
    let tmp := if scale then (s1 k).entries.map fun e => (e.1, e.2 * multme) else (s1 k).entries
    some ⟨st.store.set k ⟨v, jacRow st.store s1 multit e tmp⟩, none⟩

/-- Assignment of a new row computed from the expression alone. -/
noncomputable def assignFrom (st : State) (s1 : Store) (k : Nat) (e : Expr) : Option State :=
  match st.merger with
  | some m =>
    match fromBasicExpression st.store s1 e m with
    | some (r, m') => some ⟨st.store.set k ⟨value st.store e, r⟩, some m'⟩
    | none => none
  | none => some ⟨st.store.set k ⟨value st.store e, jacRow st.store s1 1 e []⟩, none⟩

/-- Execution of a statement. -/
noncomputable def exec (st : State) : Stmt → Option State
  | .assign k e => assignFrom st st.store k e
  | .assignRef k e => assignFrom st (st.store.setValue k (value st.store e)) k e
  | .assignConst k c => some { st with store := st.store.set k ⟨c, []⟩ }
  | .addAssign k e =>
    let v := (st.store k).value + value st.store e
    combine st (st.store.setValue k v) k false 1 1 e v
  | .subAssign k e =>
    let v := (st.store k).value - value st.store e
    combine st (st.store.setValue k v) k false 1 (-1) e v
  | .mulAssign k e =>
    let lval := (st.store k).value
    let rval := value st.store e
    combine st st.store k true rval lval e (lval * rval)
  | .divAssign k e =>
    let rr := 1 / value st.store e
    let v := (st.store k).value * rr
    combine st (st.store.setValue k v) k true rr (-v * rr) e v
  | .addConst k c => some { st with store := st.store.set k ⟨(st.store k).value + c, (st.store k).entries⟩ }
  | .subConst k c => some { st with store := st.store.set k ⟨(st.store k).value - c, (st.store k).entries⟩ }
  | .mulConst k c =>
    some { st with store := st.store.set k ⟨(st.store k).value * c, (st.store k).entries.map fun e => (e.1, e.2 * c)⟩ }
  | .divConst k c =>
    some { st with store := st.store.set k ⟨(st.store k).value / c, (st.store k).entries.map fun e => (e.1, e.2 / c)⟩ }

/-- Execution of a program. -/
noncomputable def execAll (st : State) : List Stmt → Option State
  | [] => some st
  | c :: cs =>
    match exec st c with
    | some st' => execAll st' cs
    | none => none

end Verif.Autodiff
