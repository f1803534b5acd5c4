import Verif.Residual.Model
import Verif.Autodiff.Spec

/-!
# Specification of the class `Residual`
-/

namespace Verif.Residual

open Verif.Sparse Verif.Autodiff

/-- The equation `k` belongs to this process. -/
def Res.Has (r : Res) (k : Nat) : Prop := r.first ≤ k ∧ k < r.last

/-- The Hessian is not used, or it has rows for all equations of the process. -/
def Res.Fits (r : Res) : Prop := r.hfirst = r.hlast ∨ (r.hfirst ≤ r.first ∧ r.last ≤ r.hlast)

/-- The vector `x` solves the linear equation `k`: `J x = R`. -/
def Res.Solves (r : Res) (x : Nat → ℝ) (k : Nat) : Prop := dot (r.jac k) x = r.res k

/-- A row of norm one; `none` is the maximum norm. -/
def UnitNorm (p : Option Nat) (row : Row ℝ) : Prop :=
  match p with
  | none => (∀ e ∈ row, |e.2| ≤ 1) ∧ ∃ e ∈ row, |e.2| = 1
  | some p => (row.map fun e => |e.2| ^ p).sum = 1

/-- The intervals of the processes follow each other from `a` to `b`. -/
def Tile : Nat → List Res → Nat → Prop
  | a, [], b => a = b
  | a, r :: rs, b => r.first = a ∧ r.first ≤ r.last ∧ Tile r.last rs b

/-- The value of the equation `k` on the process that has it. -/
def Global (rs : List Res) (v : Nat → ℝ) : Prop := ∀ r ∈ rs, ∀ k, r.Has k → r.res k = v k

/-- The system holds the functions `F` at the point `x`: values and gradients, with one entry per unknown. -/
def Holds (r : Res) (F : Nat → (Nat → ℝ) → ℝ) (x : Nat → ℝ) : Prop :=
  ∀ k, r.res k = F k x ∧ HasGradient (F k) x (r.jac k) ∧ Distinct (r.jac k)

/-- The sum of the contributions to the equation `k`. -/
noncomputable def total (G : Nat → (Nat → ℝ) → ℝ) (cs : List (Nat × Expr)) (k : Nat) (y : Nat → ℝ) : ℝ :=
  ((cs.filter fun c => decide (c.1 = k)).map fun c => den G c.2 y).sum

end Verif.Residual
