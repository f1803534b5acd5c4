import Mathlib.Data.Matrix.Basic
import Mathlib.LinearAlgebra.Matrix.Notation
import Mathlib.LinearAlgebra.Matrix.Determinant.Basic
import Mathlib.Analysis.SpecialFunctions.Pow.Real

/-!
# Model of `CrossProduct`, `DotProduct`, `FrobeniusNorm` and `Transform` for vectors of three numbers

Source/Headers/inmost_dense.h.  Numbers are real.
-/

namespace Verif.Dense

/-- `A.DotProduct(B)`, inmost_dense.h L407-417, for 3 by 1 matrices. -/
noncomputable def dot3 (A B : Fin 3 → ℝ) : ℝ := 0 + A 0 * B 0 + A 1 * B 1 + A 2 * B 2

/-- `A.FrobeniusNorm()`, L429-436. -/
noncomputable def norm3 (A : Fin 3 → ℝ) : ℝ := Real.sqrt (0 + A 0 * A 0 + A 1 * A 1 + A 2 * A 2)

/-- `A.CrossProduct(B)`, L3368-3385, for one column. -/
noncomputable def cross3 (A B : Fin 3 → ℝ) : Fin 3 → ℝ :=
  ![A 1 * B 2 - A 2 * B 1, A 2 * B 0 - A 0 * B 2, A 0 * B 1 - A 1 * B 0]

/-- The matrix L3412-3422 from `x`, `y`, `z`, `w`, `n`, `l`. -/
def quatMatrix (x y z w n l : ℝ) : Matrix (Fin 3) (Fin 3) ℝ :=
  !![l - (y * y + z * z) * n, (x * y - z * w) * n, (x * z + y * w) * n;
     (x * y + z * w) * n, l - (x * x + z * z) * n, (y * z - x * w) * n;
     (x * z - y * w) * n, (y * z + x * w) * n, l - (x * x + y * y) * n]

/-- `A.Transform(B)`, L3388-3424.  Division by zero, which the program performs when the vectors are opposite or zero, gives 0 here; the theorem excludes
these cases. -/
noncomputable def transform (A B : Fin 3 → ℝ) : Matrix (Fin 3) (Fin 3) ℝ :=
  let x := -(B 1 * A 2 - B 2 * A 1)
  let y := -(B 2 * A 0 - B 0 * A 2)
  let z := -(B 0 * A 1 - B 1 * A 0)
  let w := norm3 A * norm3 B + dot3 A B
  let l := norm3 B / norm3 A
  let n := 2 * l / (x * x + y * y + z * z + w * w)
  quatMatrix x y z w n l

end Verif.Dense
