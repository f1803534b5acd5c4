import Verif.Dense.TransformModel
import Mathlib.Tactic.Ring
import Mathlib.Tactic.FieldSimp
import Mathlib.Tactic.LinearCombination
import Mathlib.Tactic.FinCases

/-!
# C38: `Transform` maps one vector to the other; C51: `CrossProduct`
-/

namespace Verif.Dense

open Matrix

/-- The length of a vector, for the statements. -/
noncomputable def len (A : Fin 3 → ℝ) : ℝ := Real.sqrt (A 0 ^ 2 + A 1 ^ 2 + A 2 ^ 2)

theorem norm3_eq (A : Fin 3 → ℝ) : norm3 A = len A := by unfold norm3 len; congr 1; ring

theorem len_sq (A : Fin 3 → ℝ) : len A * len A = A 0 ^ 2 + A 1 ^ 2 + A 2 ^ 2 :=
  Real.mul_self_sqrt (by positivity)

theorem len_pos (A : Fin 3 → ℝ) (h : A ≠ 0) : 0 < len A := by
  apply Real.sqrt_pos.2
  have : 0 ≤ A 0 ^ 2 + A 1 ^ 2 + A 2 ^ 2 := by positivity
  rcases this.lt_or_eq with h1 | h1
  · exact h1
  · exfalso
    apply h
    have h0 : A 0 ^ 2 = 0 := by nlinarith [sq_nonneg (A 0), sq_nonneg (A 1), sq_nonneg (A 2)]
    have h2 : A 1 ^ 2 = 0 := by nlinarith [sq_nonneg (A 0), sq_nonneg (A 1), sq_nonneg (A 2)]
    have h3 : A 2 ^ 2 = 0 := by nlinarith [sq_nonneg (A 0), sq_nonneg (A 1), sq_nonneg (A 2)]
    funext i
    fin_cases i
    · exact pow_eq_zero_iff (two_ne_zero) |>.1 h0
    · exact pow_eq_zero_iff (two_ne_zero) |>.1 h2
    · exact pow_eq_zero_iff (two_ne_zero) |>.1 h3

theorem quat_orthogonal (x y z w n l : ℝ) (hN : (x * x + y * y + z * z + w * w) * n = 2 * l) :
    (quatMatrix x y z w n l)ᵀ * quatMatrix x y z w n l = (l ^ 2) • (1 : Matrix (Fin 3) (Fin 3) ℝ) := by
  ext i j
  fin_cases i <;> fin_cases j <;>
    simp [quatMatrix, Matrix.mul_apply, Fin.sum_univ_three]
  · linear_combination (n * (y * y + z * z)) * hN
  · linear_combination (-(n * x * y)) * hN
  · linear_combination (-(n * x * z)) * hN
  · linear_combination (-(n * x * y)) * hN
  · linear_combination (n * (x * x + z * z)) * hN
  · linear_combination (-(n * y * z)) * hN
  · linear_combination (-(n * x * z)) * hN
  · linear_combination (-(n * y * z)) * hN
  · linear_combination (n * (x * x + y * y)) * hN

theorem quat_det (x y z w n l : ℝ) (hN : (x * x + y * y + z * z + w * w) * n = 2 * l) :
    (quatMatrix x y z w n l).det = l ^ 3 := by
  rw [Matrix.det_fin_three]
  simp [quatMatrix]
  linear_combination ((x * x + y * y + z * z) * n * l) * hN

/-- **C38.**  For all non-zero vectors `A` and `B` that are not opposite, the matrix `Q` that `A.Transform(B)` returns maps `A` to `B`; it is a rotation times
the ratio of the lengths: `QᵀQ = (|B|/|A|)² I`, `det Q = (|B|/|A|)³`. -/
theorem C38_transform (A B : Fin 3 → ℝ) (hA : A ≠ 0) (hB : B ≠ 0) (hop : ∀ c : ℝ, c < 0 → B ≠ c • A) :
    (transform A B).mulVec A = B ∧
    (transform A B)ᵀ * transform A B = ((len B / len A) ^ 2) • (1 : Matrix (Fin 3) (Fin 3) ℝ) ∧
    (transform A B).det = (len B / len A) ^ 3 := by
  have ha := len_pos A hA
  have hb := len_pos B hB
  have hA2 := len_sq A
  have hB2 := len_sq B
  have hs : dot3 A B = A 0 * B 0 + A 1 * B 1 + A 2 * B 2 := by unfold dot3; ring
  have hw : len A * len B + (A 0 * B 0 + A 1 * B 1 + A 2 * B 2) ≠ 0 := by
    intro h0
    have hz : (len B * A 0 + len A * B 0) ^ 2 + (len B * A 1 + len A * B 1) ^ 2 + (len B * A 2 + len A * B 2) ^ 2 = 0 := by
      linear_combination (2 * len A * len B) * h0 - (len B * len B) * hA2 - (len A * len A) * hB2
    have z0 : len B * A 0 + len A * B 0 = 0 := by
      apply pow_eq_zero_iff (two_ne_zero) |>.1
      nlinarith [sq_nonneg (len B * A 0 + len A * B 0), sq_nonneg (len B * A 1 + len A * B 1), sq_nonneg (len B * A 2 + len A * B 2)]
    have z1 : len B * A 1 + len A * B 1 = 0 := by
      apply pow_eq_zero_iff (two_ne_zero) |>.1
      nlinarith [sq_nonneg (len B * A 0 + len A * B 0), sq_nonneg (len B * A 1 + len A * B 1), sq_nonneg (len B * A 2 + len A * B 2)]
    have z2 : len B * A 2 + len A * B 2 = 0 := by
      apply pow_eq_zero_iff (two_ne_zero) |>.1
      nlinarith [sq_nonneg (len B * A 0 + len A * B 0), sq_nonneg (len B * A 1 + len A * B 1), sq_nonneg (len B * A 2 + len A * B 2)]
    apply hop (-(len B / len A)) (by have := div_pos hb ha; linarith)
    funext i
    fin_cases i
    · simp; field_simp; linarith
    · simp; field_simp; linarith
    · simp; field_simp; linarith
  unfold transform
  simp only [norm3_eq, hs]
  generalize hxd : -(B 1 * A 2 - B 2 * A 1) = x
  generalize hyd : -(B 2 * A 0 - B 0 * A 2) = y
  generalize hzd : -(B 0 * A 1 - B 1 * A 0) = z
  generalize hwd : len A * len B + (A 0 * B 0 + A 1 * B 1 + A 2 * B 2) = w at hw ⊢
  generalize len A = a at *
  generalize len B = b at *
  have hv : x * x + y * y + z * z = (a * b - (A 0 * B 0 + A 1 * B 1 + A 2 * B 2)) * w := by
    subst hxd hyd hzd hwd
    linear_combination (-(b * b)) * hA2 - (A 0 ^ 2 + A 1 ^ 2 + A 2 ^ 2) * hB2
  have hN : x * x + y * y + z * z + w * w = 2 * a * b * w := by
    rw [hv, ← hwd]; ring
  have hN0 : x * x + y * y + z * z + w * w ≠ 0 := by
    rw [hN]; positivity
  have hn : (x * x + y * y + z * z + w * w) * (2 * (b / a) / (x * x + y * y + z * z + w * w)) = 2 * (b / a) := by
    field_simp
  refine ⟨?_, quat_orthogonal x y z w _ _ hn, quat_det x y z w _ _ hn⟩
  have hn' : 2 * (b / a) / (x * x + y * y + z * z + w * w) = 1 / (a * a * w) := by
    rw [hN]; field_simp
  rw [hn']
  have h1 : x * A 0 + y * A 1 + z * A 2 = 0 := by
    subst hxd hyd hzd; ring
  have g0 : y * A 2 - z * A 1 = a * a * B 0 - (A 0 * B 0 + A 1 * B 1 + A 2 * B 2) * A 0 := by
    subst hxd hyd hzd; linear_combination (-(B 0)) * hA2
  have g1 : z * A 0 - x * A 2 = a * a * B 1 - (A 0 * B 0 + A 1 * B 1 + A 2 * B 2) * A 1 := by
    subst hxd hyd hzd; linear_combination (-(B 1)) * hA2
  have g2 : x * A 1 - y * A 0 = a * a * B 2 - (A 0 * B 0 + A 1 * B 1 + A 2 * B 2) * A 2 := by
    subst hxd hyd hzd; linear_combination (-(B 2)) * hA2
  generalize A 0 * B 0 + A 1 * B 1 + A 2 * B 2 = s at *
  funext i
  fin_cases i
  · simp [quatMatrix, Matrix.mulVec, dotProduct, Fin.sum_univ_three]
    field_simp
    linear_combination x * h1 - A 0 * hv + w * g0
  · simp [quatMatrix, Matrix.mulVec, dotProduct, Fin.sum_univ_three]
    field_simp
    linear_combination y * h1 - A 1 * hv + w * g1
  · simp [quatMatrix, Matrix.mulVec, dotProduct, Fin.sum_univ_three]
    field_simp
    linear_combination z * h1 - A 2 * hv + w * g2

/-- The hypotheses are met by two orthogonal vectors of different lengths. -/
example : (transform ![3, 0, 0] ![0, 5, 0]).mulVec ![3, 0, 0] = ![0, 5, 0] := by
  refine (C38_transform _ _ ?_ ?_ ?_).1
  · intro h; have := congrFun h 0; simp at this
  · intro h; have := congrFun h 1; simp at this
  · intro c _ h; have := congrFun h 1; simp at this

/-- **C51.**  The cross product of all vectors `A` and `B` is orthogonal to both, its squared length is `|A|²|B|² - (A·B)²`, and the three vectors are
right-handed: the determinant of `A`, `B`, `A×B` is the squared length. -/
theorem C51_cross (A B : Fin 3 → ℝ) :
    dot3 (cross3 A B) A = 0 ∧ dot3 (cross3 A B) B = 0 ∧
    len (cross3 A B) ^ 2 = len A ^ 2 * len B ^ 2 - (dot3 A B) ^ 2 ∧
    (Matrix.of ![A, B, cross3 A B]).det = len (cross3 A B) ^ 2 := by
  have e1 : len (cross3 A B) ^ 2 = cross3 A B 0 ^ 2 + cross3 A B 1 ^ 2 + cross3 A B 2 ^ 2 := by rw [pow_two (len _), len_sq]
  have e2 : len A ^ 2 = A 0 ^ 2 + A 1 ^ 2 + A 2 ^ 2 := by rw [pow_two (len _), len_sq]
  have e3 : len B ^ 2 = B 0 ^ 2 + B 1 ^ 2 + B 2 ^ 2 := by rw [pow_two (len _), len_sq]
  rw [e1, e2, e3, Matrix.det_fin_three]
  simp [cross3, dot3]
  refine ⟨by ring, by ring, by ring, by ring⟩

/-- The dot product and the norm are what their names say. -/
theorem C51_dot (A B : Fin 3 → ℝ) : dot3 A B = A ⬝ᵥ B ∧ norm3 A = Real.sqrt (A ⬝ᵥ A) := by
  refine ⟨by simp [dot3, dotProduct, Fin.sum_univ_three], ?_⟩
  unfold norm3; congr 1
  simp [dotProduct, Fin.sum_univ_three]

end Verif.Dense
