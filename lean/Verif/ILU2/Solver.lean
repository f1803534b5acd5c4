import Verif.ILU2.Props
import Verif.Krylov.Props

/-!
# C46 for the solver `inner_ilu2`: BiCGStab(l) with the ILU2 preconditioner
-/

namespace Verif.ILU2

open Matrix Verif.Krylov

/-- A vector as a function of all numbers. -/
def extend {n : Nat} (v : Vec n) (k : Nat) : ℝ := if h : k < n then v ⟨k, h⟩ else 0

/-- The preconditioner as an operation on vectors. -/
noncomputable def precond {n : Nat} (F : List Fact) (v : Vec n) : Vec n := fun k => solve F (extend v) k

theorem extend_add {n : Nat} (c : ℝ) (a b : Vec n) : extend (c • a + b) = fun k => c * extend a k + extend b k := by
  funext k
  unfold extend
  split
  · simp
  · simp

theorem precond_lin {n : Nat} (F : List Fact) (c : ℝ) (a b : Vec n) : precond F (c • a + b) = c • precond F a + precond F b := by
  funext k
  simp only [precond, extend_add, C54_linear]
  rfl

theorem precond_zero {n : Nat} (F : List Fact) : precond F (0 : Vec n) = 0 := by
  have := precond_lin F (-1) (0 : Vec n) 0
  simp only [smul_zero, add_zero, neg_smul, one_smul] at this
  rw [this]
  simp

/-- **C46** for BiCGStab(l) with the ILU2 preconditioner, whatever factors it has: success means that the residual of the returned solution satisfies one of the tolerances. -/
theorem C46_ilu2_success {n : Nat} {P : Problem n} (F : List Fact) (hP : P.prec = some (precond F)) {l : Nat} {s : LSt n} (h : LReach P l s)
    (hs : Small P s.lastResid) :
    norm (P.b - P.A *ᵥ (lresult P s)) < P.atol ∨ norm (P.b - P.A *ᵥ (lresult P s)) < P.rtol * norm (P.b - P.A *ᵥ P.x0) := by
  refine (C46_bcgsl_success ?_ h hs).2
  intro f hf
  rw [hP] at hf
  obtain rfl := Option.some.inj hf
  refine ⟨fun a b => ?_, fun c a => ?_⟩
  · have := precond_lin F 1 a b
    simpa using this
  · have := precond_lin F c a 0
    simpa [precond_zero] using this

end Verif.ILU2
