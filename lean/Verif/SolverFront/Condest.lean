import Mathlib.Analysis.Normed.Module.Basic
import Mathlib.Tactic.Linarith
import Mathlib.Tactic.Positivity
import Mathlib.Tactic.FieldSimp

/-!
# Estimate of the condition number (C150)

Models `SolverInner::Condest` (`/repo/Source/Solver/solver_inner/SolverInner.cpp` L190-280; the other branch, under ACCELERATED_CONDEST, is not compiled, see SolverInner.h L10).

Simplifications: exact real numbers. The square root of the sum of squares over local rows of all processes is the norm of the vector. Random starting vectors
are arguments. A division by a zero norm gives `none`: in the code all later numbers are not numbers.
-/

namespace Verif.SolverFront.Condest

variable {E : Type*} [NormedAddCommGroup E] [NormedSpace ℝ E]

/-- the loops of L209-227 and L248-263: `k` is `maxiter - iter`, `f v g` is the new vector, where `g` is the former contents of `Av`. The result is the norm, the previous
norm and what is left of `maxiter`. -/
noncomputable def powerLoop (f : E → E → E) (tol : ℝ) : Nat → E → E → ℝ → ℝ → Option (ℝ × ℝ × Nat)
  | 0, _, _, norm, prev => some (norm, prev, 0)
  | k + 1, v, g, norm, prev =>
    if |norm - prev| / norm > tol then
      let w := f v g
      if ‖w‖ = 0 then none else powerLoop f tol k (‖w‖⁻¹ • w) v ‖w‖ norm
    else some (norm, prev, k + 1)

/-- L198-235 and L237-271: starting vector, loop, the larger of the last two norms if the loop ran out -/
noncomputable def estimate (f : E → E → E) (tol : ℝ) (maxiter : Nat) (v g : E) : Option ℝ :=
  if ‖v‖ = 0 then none
  else match powerLoop f tol maxiter (‖v‖⁻¹ • v) g ‖v‖ 0 with
    | none => none
    | some (norm, prev, k) => some (if k = 0 then max norm prev else norm)

/-- `Condest`, L190-280: `A` multiplies by the matrix, `solve b g` is what `Solve` gives for the right hand side `b` and the initial guess `g`; `v`, `w` are the random vectors.
The guess in the first call of `Solve` is what `Av` holds, any vector `g`. -/
noncomputable def condest (A : E → E) (solve : E → E → E) (tol : ℝ) (maxiter : Nat) (v w g g' : E) : Option ℝ :=
  match estimate (fun x _ => A x) tol maxiter v g with
  | none => none
  | some lambdaMax => match estimate solve tol maxiter w g' with
    | none => none
    | some norm => some (lambdaMax / (1 / norm))

/-! ## Lemmas -/

/-- bounds on the map give bounds on both norms at the end of the loop, when those at the start are in the bounds -/
theorem powerLoop_bounds (f : E → E → E) (tol lo hi : ℝ) (hlo : 0 < lo) (hf : ∀ x g, ‖x‖ = 1 → lo ≤ ‖f x g‖ ∧ ‖f x g‖ ≤ hi) :
    ∀ (k : Nat) (v g : E) (norm prev : ℝ), ‖v‖ = 1 → (lo ≤ norm ∧ norm ≤ hi) → (lo ≤ prev ∧ prev ≤ hi) →
    ∃ n p j, powerLoop f tol k v g norm prev = some (n, p, j) ∧ (lo ≤ n ∧ n ≤ hi) ∧ (lo ≤ p ∧ p ≤ hi)
  | 0, _, _, norm, prev, _, hn, hp => ⟨norm, prev, 0, rfl, hn, hp⟩
  | k + 1, v, g, norm, prev, hv, hn, hp => by
    unfold powerLoop
    by_cases ht : |norm - prev| / norm > tol
    · have hw := hf v g hv
      have h0 : ‖f v g‖ ≠ 0 := ne_of_gt (lt_of_lt_of_le hlo hw.1)
      simp only [if_pos ht, if_neg h0]
      refine powerLoop_bounds f tol lo hi hlo hf k _ v _ norm ?_ hw hn
      rw [norm_smul, norm_inv, norm_norm, inv_mul_cancel₀ h0]
    · exact ⟨norm, prev, k + 1, by simp only [if_neg ht], hn, hp⟩

/-- with two steps allowed and a tolerance below one, the estimate lies in the bounds on the map -/
theorem estimate_bounds (f : E → E → E) (tol lo hi : ℝ) (hlo : 0 < lo) (hf : ∀ x g, ‖x‖ = 1 → lo ≤ ‖f x g‖ ∧ ‖f x g‖ ≤ hi) (htol : tol < 1) (maxiter : Nat)
    (hm : 2 ≤ maxiter) (v g : E) (hv : v ≠ 0) : ∃ n, estimate f tol maxiter v g = some n ∧ lo ≤ n ∧ n ≤ hi := by
  have hv0 : ‖v‖ ≠ 0 := norm_ne_zero_iff.2 hv
  have hvp : 0 < ‖v‖ := norm_pos_iff.2 hv
  have h1 : ‖(‖v‖⁻¹ • v)‖ = 1 := by rw [norm_smul, norm_inv, norm_norm, inv_mul_cancel₀ hv0]
  obtain ⟨k, rfl⟩ : ∃ k, maxiter = k + 2 := ⟨maxiter - 2, by omega⟩
  have ht : |‖v‖ - 0| / ‖v‖ > tol := by
    rw [sub_zero, abs_of_pos hvp, div_self hv0]; exact htol
  have hw := hf _ g h1
  have h0 : ‖f (‖v‖⁻¹ • v) g‖ ≠ 0 := ne_of_gt (lt_of_lt_of_le hlo hw.1)
  have h1' : ‖(‖f (‖v‖⁻¹ • v) g‖⁻¹ • f (‖v‖⁻¹ • v) g)‖ = 1 := by rw [norm_smul, norm_inv, norm_norm, inv_mul_cancel₀ h0]
  unfold estimate
  rw [if_neg hv0, powerLoop, if_pos ht]
  simp only [if_neg h0]
  rw [powerLoop]
  by_cases ht2 : |‖f (‖v‖⁻¹ • v) g‖ - ‖v‖| / ‖f (‖v‖⁻¹ • v) g‖ > tol
  · rw [if_pos ht2]
    have hw2 := hf _ (‖v‖⁻¹ • v) h1'
    have h02 := ne_of_gt (lt_of_lt_of_le hlo hw2.1)
    simp only [if_neg h02]
    obtain ⟨n, p, j, e, hn, hp⟩ := powerLoop_bounds f tol lo hi hlo hf k
      (‖f (‖f (‖v‖⁻¹ • v) g‖⁻¹ • f (‖v‖⁻¹ • v) g) (‖v‖⁻¹ • v)‖⁻¹ • f (‖f (‖v‖⁻¹ • v) g‖⁻¹ • f (‖v‖⁻¹ • v) g) (‖v‖⁻¹ • v)) (‖f (‖v‖⁻¹ • v) g‖⁻¹ • f (‖v‖⁻¹ • v) g) _ _
      (by rw [norm_smul, norm_inv, norm_norm, inv_mul_cancel₀ h02]) hw2 hw
    rw [e]
    refine ⟨_, rfl, ?_⟩
    by_cases hj : j = 0
    · rw [if_pos hj]
      exact ⟨le_trans hn.1 (le_max_left _ _), max_le hn.2 hp.2⟩
    · rw [if_neg hj]; exact hn
  · rw [if_neg ht2]
    refine ⟨_, rfl, ?_⟩
    rw [if_neg (Nat.succ_ne_zero k)]
    exact hw

/-! ## The property -/

/-- **C150** (partial): with an exact `Solve`, a tolerance below one and at least two steps, the estimate is a positive number between the inverse of the condition number and the
condition number: no larger than `M * N` for all bounds `‖A x‖ ≤ M ‖x‖` and `‖x‖ ≤ N ‖A x‖`. Missing: one step, see `C150_one_step_fails`; that it is at least one, see
`C150_below_one_fails`. -/
theorem C150_bounds_partial (A : E → E) (solve : E → E → E) (M N : ℝ) (hM : ∀ x, ‖A x‖ ≤ M * ‖x‖) (hN : ∀ x, ‖x‖ ≤ N * ‖A x‖)
    (hs : ∀ b g, A (solve b g) = b) (tol : ℝ) (htol : tol < 1) (maxiter : Nat) (hm : 2 ≤ maxiter) (v w g g' : E) (hv : v ≠ 0) (hw : w ≠ 0) :
    ∃ c, condest A solve tol maxiter v w g g' = some c ∧ 0 < c ∧ 1 / (M * N) ≤ c ∧ c ≤ M * N := by
  have hvp : 0 < ‖v‖ := norm_pos_iff.2 hv
  have hAv : 0 ≤ ‖A v‖ := norm_nonneg _
  have hNp : 0 < N := by
    by_contra h
    have h1 := hN v
    have : N * ‖A v‖ ≤ 0 := mul_nonpos_of_nonpos_of_nonneg (not_lt.1 h) hAv
    linarith
  have hMp : 0 < M := by
    by_contra h
    have h1 : M * ‖v‖ ≤ 0 := mul_nonpos_of_nonpos_of_nonneg (not_lt.1 h) hvp.le
    have h2 : ‖A v‖ = 0 := le_antisymm (le_trans (hM v) h1) hAv
    have h3 := hN v
    rw [h2, mul_zero] at h3
    linarith
  have hf1 : ∀ (x g : E), ‖x‖ = 1 → 1 / N ≤ ‖(fun x (_ : E) => A x) x g‖ ∧ ‖(fun x (_ : E) => A x) x g‖ ≤ M := by
    intro x _ hx
    have a := hN x
    have b := hM x
    rw [hx] at a b
    refine ⟨?_, by simpa using b⟩
    rw [div_le_iff₀ hNp, mul_comm]
    exact a
  have hf2 : ∀ (x g : E), ‖x‖ = 1 → 1 / M ≤ ‖solve x g‖ ∧ ‖solve x g‖ ≤ N := by
    intro x g hx
    have a := hN (solve x g)
    have b := hM (solve x g)
    rw [hs, hx] at a b
    refine ⟨?_, by simpa using a⟩
    rw [div_le_iff₀ hMp, mul_comm]
    exact b
  obtain ⟨a, ea, ha1, ha2⟩ := estimate_bounds _ tol (1 / N) M (by positivity) hf1 htol maxiter hm v g hv
  obtain ⟨b, eb, hb1, hb2⟩ := estimate_bounds solve tol (1 / M) N (by positivity) hf2 htol maxiter hm w g' hw
  have ha0 : 0 < a := lt_of_lt_of_le (by positivity) ha1
  have hb0 : 0 < b := lt_of_lt_of_le (by positivity) hb1
  refine ⟨a / (1 / b), by simp only [condest, ea, eb], by positivity, ?_, ?_⟩
  · rw [div_div_eq_mul_div, div_one]
    calc 1 / (M * N) = 1 / N * (1 / M) := by field_simp
      _ ≤ a * b := mul_le_mul ha1 hb1 (by positivity) ha0.le
  · rw [div_div_eq_mul_div, div_one]
    exact mul_le_mul ha2 hb2 hb0.le hMp.le

/-- **C150**: for a matrix that scales all vectors alike, an orthogonal one times a number, the estimate is one. -/
theorem C150_scaled_isometry (A : E → E) (solve : E → E → E) (s : ℝ) (hs0 : 0 < s) (hA : ∀ x, ‖A x‖ = s * ‖x‖) (hs : ∀ b g, A (solve b g) = b)
    (tol : ℝ) (htol : tol < 1) (maxiter : Nat) (hm : 2 ≤ maxiter) (v w g g' : E) (hv : v ≠ 0) (hw : w ≠ 0) :
    condest A solve tol maxiter v w g g' = some 1 := by
  obtain ⟨c, e, _, h1, h2⟩ := C150_bounds_partial A solve s (1 / s) (fun x => (hA x).le)
    (fun x => by rw [hA, ← mul_assoc, one_div, inv_mul_cancel₀ hs0.ne', one_mul]) hs tol htol maxiter hm v w g g' hv hw
  have : s * (1 / s) = 1 := by field_simp
  rw [this] at h1 h2
  rw [e]
  congr 1
  linarith [h1, h2]

/-- With one step, the norm of the random vector is taken for an estimate: for the matrix (1/2), with condition number one, the estimate is two.
The documentation promises 1.0e+100 for a loop that has not converged: this one has not, its last two norms are 1/2 and 1. -/
theorem C150_one_step_fails : powerLoop (E := ℝ) (fun x _ => x / 2) (1 / 10) 1 1 0 1 0 = some (1 / 2, 1, 0) ∧ |(1 / 2 : ℝ) - 1| / (1 / 2) > 1 / 10 ∧
    condest (E := ℝ) (fun x => x / 2) (fun b _ => 2 * b) (1 / 10) 1 1 1 0 0 = some 2 := by
  refine ⟨by norm_num [powerLoop], ?_, ?_⟩
  · rw [abs_of_neg (by norm_num)]; norm_num
  · norm_num [condest, estimate, powerLoop]

/-- No condition number is below one, but an estimate can be, when random vectors are orthogonal to the dominating ones: for the matrix diag(1, 1/2) and the starting vectors (0, 1), (1, 0) it
is one half. (On the axes, the norm of pairs is the Euclidean one.) -/
theorem C150_below_one_fails : condest (E := ℝ × ℝ) (fun x => (x.1, x.2 / 2)) (fun b _ => (b.1, 2 * b.2)) (1 / 10) 3 (0, 1) (1, 0) (0, 0) (0, 0) = some (1 / 2) := by
  norm_num [condest, estimate, powerLoop, Prod.norm_def]

/-- If the random vector is zero, there is no number at all. -/
theorem C150_zero_start_fails (A : E → E) (solve : E → E → E) (tol : ℝ) (maxiter : Nat) (w g g' : E) : condest A solve tol maxiter 0 w g g' = none := by
  simp [condest, estimate]

/-- Hypotheses hold for the matrix (3) with the tolerance and number of steps that the documentation proposes. -/
example : condest (E := ℝ) (fun x => 3 * x) (fun b _ => b / 3) (1 / 100) 100 (1 / 2) (1 / 3) 0 0 = some 1 :=
  C150_scaled_isometry _ _ 3 (by norm_num) (fun x => by simp) (fun b _ => by ring) _ (by norm_num) _ (by norm_num) _ _ _ _ (by norm_num) (by norm_num)

end Verif.SolverFront.Condest
