import Verif.Autodiff.Model

/-!
# Model of dynamic variables

Models `/repo/Source/Headers/inmost_variable.h`: formulas written once (`dynamic_variable`, `static_variable`,
`stored_variable`, ... and the operators on them) and evaluated on any element of the mesh.

Simplifications: the classes that collapse their argument into a `multivar_expression` before it is used
(`etype_branch_variable`, `marker_branch_variable`, `stored_variable_expression`) are modelled by the argument itself;
copies share nothing. `stencil_variable` is not modelled: its `GetValue` and `GetJacobian` take a mutable iterator of a
constant container (L409, L414, L421) and cannot be compiled. `pow(real, variable)` (L713) passes its arguments in
the order opposite to that of the constructor (L619) and cannot be compiled either.
-/

namespace Verif.Dynamic

open Verif.Autodiff

/-- What the operators can see of the mesh: the type of an element, markers. -/
structure Env (E : Type) where
  elementType : E → Nat
  marked : Nat → E → Bool

/-- Dynamic variables, by the classes and operators they are written with. -/
inductive Dyn (E : Type) where
  /-- `dynamic_variable`, L232-262: index of the unknown (`none`: the entry is not valid on the element) and value -/
  | unknown (index : E → Option Nat) (val : E → ℝ)
  /-- `const_variable`, L264-286, and `const_link_variable` (`extval`), L288-310, L734 -/
  | const (c : ℝ)
  /-- `static_variable`, L312-337 -/
  | static_ (val : E → ℝ)
  /-- `stored_variable` of a tag of variables, L339-386: which variable the element holds (on a tag of reals it is
  `static_`: L361-362, L377-378) -/
  | stored (var : E → Nat)
  /-- `condition`, L698 -/
  | condition (c l r : Dyn E)
  /-- L699-706 -/
  | neg (a : Dyn E)
  | pos (a : Dyn E)
  | fabs (a : Dyn E)
  | exp (a : Dyn E)
  | log (a : Dyn E)
  | sin (a : Dyn E)
  | cos (a : Dyn E)
  | sqrt (a : Dyn E)
  /-- `variation`, L707 -/
  | variation (a : Dyn E) (mult : ℝ)
  /-- L708-712 -/
  | add (l r : Dyn E)
  | sub (l r : Dyn E)
  | mul (l r : Dyn E)
  | div (l r : Dyn E)
  | pow (l r : Dyn E)
  /-- `pow(a, c)`, L714 -/
  | powConst (a : Dyn E) (c : ℝ)
  /-- `c * a`, L715 -/
  | constMul (c : ℝ) (a : Dyn E)
  /-- `a * c`, L716 -/
  | mulConst (a : Dyn E) (c : ℝ)
  /-- `c / a`, L717 -/
  | constDiv (c : ℝ) (a : Dyn E)
  /-- `a / c`, L718 -/
  | divConst (a : Dyn E) (c : ℝ)
  /-- `c + a`, L719 -/
  | constAdd (c : ℝ) (a : Dyn E)
  /-- `a + c`, L720 -/
  | addConst (a : Dyn E) (c : ℝ)
  /-- `c - a`, L721 -/
  | constSub (c : ℝ) (a : Dyn E)
  /-- `a - c`, L722 -/
  | subConst (a : Dyn E) (c : ℝ)
  /-- `get_table`, L724, with the values and derivatives of the table -/
  | table (a : Dyn E) (f f' : ℝ → ℝ)
  /-- `etype_branch`, L732 -/
  | etypeBranch (types : Nat) (a b : Dyn E)
  /-- `marker_branch`, L733 -/
  | markerBranch (marker : Nat) (a b : Dyn E)

/-- `operator[](e)`: the expression of a dynamic variable on an element. -/
def build {E : Type} (env : Env E) (e : E) : Dyn E → Expr
  -- L257
  | .unknown index val => .var (val e) (index e)
  -- L282, L306
  | .const c => .const c
  -- L331
  | .static_ val => .const (val e)
  -- L373-376
  | .stored var => .mvar (var e)
  -- L686
  | .condition c l r => .cond (build env e c) (build env e l) (build env e r)
  -- L604
  | .neg a => .neg (build env e a)
  | .pos a => .pos (build env e a)
  | .fabs a => .abs (build env e a)
  | .exp a => .exp (build env e a)
  | .log a => .log (build env e a)
  | .sin a => .sin (build env e a)
  | .cos a => .cos (build env e a)
  | .sqrt a => .sqrt (build env e a)
  -- L631
  | .variation a m => .variation (build env e a) m
  -- L658
  | .add l r => .add (build env e l) (build env e r)
  | .sub l r => .sub (build env e l) (build env e r)
  | .mul l r => .mul (build env e l) (build env e r)
  | .div l r => .div (build env e l) (build env e r)
  | .pow l r => .pow (build env e l) (build env e r)
  -- L631 with the classes named in L714-722
  | .powConst a c => .powConst (build env e a) c
  | .constMul c a => .constMul (build env e a) c
  | .mulConst a c => .constMul (build env e a) c
  | .constDiv c a => .recip (build env e a) c
  | .divConst a c => .constDiv (build env e a) c
  | .constAdd c a => .constAdd (build env e a) c
  | .addConst a c => .constAdd (build env e a) c
  | .constSub c a => .constSub (build env e a) c
  | .subConst a c => .constAdd (build env e a) (-c)
  -- L486-494
  | .table a f f' => .func (build env e a) f f'
  -- L528-533
  | .etypeBranch types a b => if env.elementType e &&& types ≠ 0 then build env e a else build env e b
  -- L571-576
  | .markerBranch marker a b => if env.marked marker e then build env e a else build env e b

/-- `Value(e)`: L248, L276, L300, L326, L357-364 and `(*this)[e].GetValue()` of the other classes -/
noncomputable def valueAt {E : Type} (env : Env E) (s : Store) (d : Dyn E) (e : E) : ℝ := value s (build env e d)

/-- `GetVariation(e, row)`: `(*this)[e].GetJacobian(1.0,r)` in all classes (L258, L283, L307, L333, L382, ...) -/
noncomputable def variationAt {E : Type} (env : Env E) (s : Store) (d : Dyn E) (e : E) : Verif.Sparse.Row ℝ :=
  jacRow s s 1 (build env e d) []

end Verif.Dynamic
