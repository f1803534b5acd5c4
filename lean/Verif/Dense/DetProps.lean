import Verif.Dense.DetMinors
import Mathlib.Data.Rat.Cast.Order
import Mathlib.Tactic.NormNum

/-!
# C108: `Det` returns the determinant

The specification is `Matrix.det` of Mathlib: the sum over all permutations.
-/

namespace Verif.Dense.Det

variable {K : Type} [Field K] [LinearOrder K]

/-- Tests with a tolerance that is below the tested numbers are exact. -/
theorem tests_exact [IsStrictOrderedRing K] {e x : K} (he : 0 < e) (h : x = 0 ∨ e < |x|) :
    decide (x = 0) = decide (|x| < e) ∧ decide (x ≠ 0) = decide (|x| > e) := by
  rcases h with rfl | h
  · simp [he, he.le]
  · have hx : x ≠ 0 := by rintro rfl; rw [abs_zero] at h; exact absurd h (not_lt.2 he.le)
    constructor
    · rw [decide_eq_false hx, decide_eq_false (not_lt.2 h.le)]
    · rw [decide_eq_true hx, decide_eq_true h]

/-- **C108.** For a square matrix of any size: if no number that the function compares with its tolerance is nonzero and as small as the tolerance, the
result is the determinant. -/
theorem C108_det_partial [IsStrictOrderedRing K] (n : Nat) (A : Nat → Nat → K) (h : ∀ x ∈ (detRun eps n A).2, x = 0 ∨ eps < |x|) :
    det n A = (Matrix.of fun i j : Fin n => A i j).det := by
  have he : (0 : K) < eps := by unfold eps; positivity
  rw [← exact_spec n A]
  have := run_congr (small := fun x : K => decide (|x| < eps)) (big := fun x : K => decide (|x| > eps)) (small' := fun x => decide (x = 0))
    (big' := fun x => decide (x ≠ 0)) (n := n) n 0 (start A) (fun x hx => tests_exact he (h x hx))
  rw [this]
  rfl

/-- The matrix of the example: the first pivot is in the second row. -/
def exA : Nat → Nat → ℚ := fun i j => (([[0, 2, 1], [3, 1, 0], [6, 5, 2]].getD i []).getD j 0)

theorem exA_tested : ∀ x ∈ (detRun eps 3 exA).2, x = 0 ∨ eps < |x| := by decide +kernel

example : det 3 exA = (Matrix.of fun i j : Fin 3 => exA i j).det ∧ det 3 exA = -3 :=
  ⟨C108_det_partial 3 exA exA_tested, by decide +kernel⟩

/-- **C108.** For a matrix of integers at most `B` in absolute value, with `n! B^n` less than `10^13`, the result is the determinant. -/
theorem C108_integer [IsStrictOrderedRing K] (n B : Nat) (hB : 1 ≤ B) (A : Nat → Nat → ℤ) (hA : ∀ i < n, ∀ j < n, |A i j| ≤ B)
    (h : n.factorial * B ^ n < 10 ^ 13) :
    det n (fun i j => (A i j : K)) = (((Matrix.of fun i j : Fin n => A i j).det : ℤ) : K) := by
  have he : (0 : K) < eps := by unfold eps; positivity
  have hH : (0 : K) < ((n.factorial * B ^ n : Nat) : K) := by
    have : 0 < n.factorial * B ^ n := Nat.mul_pos (Nat.factorial_pos n) (Nat.pow_pos hB)
    exact_mod_cast this
  have hlt : (eps : K) < 1 / ((n.factorial * B ^ n : Nat) : K) := by
    unfold eps
    apply one_div_lt_one_div_of_lt hH
    exact_mod_cast h
  have hc : (((Matrix.of fun i j : Fin n => A i j).det : ℤ) : K) = (Matrix.of fun i j : Fin n => (A i j : K)).det := by
    rw [Int.cast_det]
    rfl
  rw [hc, ← exact_spec n (fun i j => (A i j : K))]
  have := run_congr (small := fun x : K => decide (x = 0)) (big := fun x : K => decide (x ≠ 0)) (small' := fun x => decide (|x| < eps))
    (big' := fun x => decide (|x| > eps)) (n := n) n 0 (start fun i j => (A i j : K)) (fun x hx => by
      have := tests_exact he ((tested_lower hB hA x hx).imp id (fun h => hlt.trans_le h))
      exact ⟨this.1.symm, this.2.symm⟩)
  unfold det detRun
  rw [this]

example : det 3 (fun i j => (((i : ℤ) * j * j - 2 * i + 1 : ℤ) : ℚ)) =
    (((Matrix.of fun i j : Fin 3 => ((i : ℕ) : ℤ) * (j : ℕ) * (j : ℕ) - 2 * (i : ℕ) + 1).det : ℤ) : ℚ) :=
  C108_integer 3 8 (by decide) (fun i j => (i : ℤ) * j * j - 2 * i + 1) (by decide +kernel) (by decide +kernel)

/-- **C108.** For every matrix the determinant is returned if the tolerance is small enough. -/
theorem C108_small_tolerance [IsStrictOrderedRing K] (n : Nat) (A : Nat → Nat → K) :
    ∃ e0 > 0, ∀ e, 0 < e → e < e0 → (detRun e n A).1 = (Matrix.of fun i j : Fin n => A i j).det := by
  have hl : ∀ l : List K, ∃ e0 > 0, ∀ x ∈ l, x = 0 ∨ e0 ≤ |x| := by
    intro l
    induction l with
    | nil => exact ⟨1, one_pos, by simp⟩
    | cons a l ih =>
      obtain ⟨e0, h0, h⟩ := ih
      by_cases ha : a = 0
      · refine ⟨e0, h0, fun x hx => ?_⟩
        rcases List.mem_cons.1 hx with rfl | hx
        · exact Or.inl ha
        · exact h x hx
      · refine ⟨min e0 |a|, lt_min h0 (abs_pos.2 ha), fun x hx => ?_⟩
        rcases List.mem_cons.1 hx with rfl | hx
        · exact Or.inr (min_le_right _ _)
        · exact (h x hx).imp id (fun h => (min_le_left _ _).trans h)
  obtain ⟨e0, h0, h⟩ := hl (run (fun x => decide (x = 0)) (fun x => decide (x ≠ 0)) n n 0 (start A)).2
  refine ⟨e0, h0, fun e he hlt => ?_⟩
  rw [← exact_spec n A]
  have := run_congr (small := fun x : K => decide (x = 0)) (big := fun x : K => decide (x ≠ 0)) (small' := fun x => decide (|x| < e))
    (big' := fun x => decide (|x| > e)) (n := n) n 0 (start A) (fun x hx => by
      have := tests_exact he ((h x hx).imp id (fun h => hlt.trans_le h))
      exact ⟨this.1.symm, this.2.symm⟩)
  unfold detRun
  rw [this]

/-- **C108.** Small numbers: the determinant of the 1 by 1 matrix with the element `10^(-14)` is not zero, the function returns zero. -/
theorem C108_pivot_fails : ∃ A : Nat → Nat → ℚ, (Matrix.of fun i j : Fin 1 => A i j).det = 1 / 10 ^ 14 ∧ det 1 A = 0 :=
  ⟨fun _ _ => 1 / 10 ^ 14, by simp, by decide +kernel⟩

/-- The second example: `[1 10^14; 10^(-14) 2]`. -/
def exB : Nat → Nat → ℚ := fun i j => (([[1, 10 ^ 14], [1 / 10 ^ 14, 2]].getD i []).getD j 0)

/-- **C108.** Elements of different sizes: the determinant of `[1 10^14; 10^(-14) 2]` is 1, the function returns 2. -/
theorem C108_coef_fails : ∃ A : Nat → Nat → ℚ, (Matrix.of fun i j : Fin 2 => A i j).det = 1 ∧ det 2 A = 2 :=
  ⟨exB, by rw [Matrix.det_fin_two]; decide +kernel, by decide +kernel⟩

end Verif.Dense.Det
