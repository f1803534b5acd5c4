import Verif.Search.Spec
import Mathlib.Data.Int.Log
import Mathlib.Data.Rat.Floor
import Mathlib.Tactic.Linarith
import Mathlib.Tactic.NormNum
import Mathlib.Tactic.FieldSimp
import Mathlib.Tactic.Ring

/-!
# The conversion to `float`

Rounding to the nearest number with 24 significant bits, ties to even, and to multiples of
`2^-149` below the smallest normal number.  That numbers above `3.4e38` overflow is not modelled.
-/

namespace Verif.Search

variable {K : Type} [Field K] [LinearOrder K] [IsStrictOrderedRing K] [FloorRing K]

/-- The nearest integer, ties to even. -/
def roundEven (x : K) : ℤ :=
  let f := ⌊x⌋
  let r := x - f
  if r < 1 / 2 then f else if 1 / 2 < r then f + 1 else if f % 2 = 0 then f else f + 1

/-- `(float)x`. -/
def fl32 (x : K) : K :=
  let u : K := 2 ^ (max (Int.log 2 |x|) (-126) - 23)
  roundEven (x / u) * u

theorem roundEven_error (x : K) : |(roundEven x : K) - x| ≤ 1 / 2 := by
  have h1 := Int.floor_le x
  have h2 := Int.lt_floor_add_one x
  rw [abs_le]
  simp only [roundEven]
  split
  · constructor <;> linarith
  · split
    · push_cast; constructor <;> linarith
    · split
      · constructor <;> linarith
      · push_cast; constructor <;> linarith

theorem fl32_floatLike : FloatLike (fl32 : K → K) := by
  intro x
  by_cases hx0 : x = 0
  · subst hx0
    norm_num [fl32, roundEven]
  have hpos : 0 < |x| := abs_pos.2 hx0
  simp only [fl32]
  have hu : (0 : K) < 2 ^ (max (Int.log 2 |x|) (-126) - 23) := zpow_pos (by norm_num) _
  have hux : (2 : K) ^ (max (Int.log 2 |x|) (-126) - 23) / 2 ≤ |x| / 2 ^ 24 + 1 / 2 ^ 150 := by
    have hx : (0 : K) ≤ |x| / 2 ^ 24 := div_nonneg (abs_nonneg _) (by norm_num)
    rcases le_total (Int.log 2 |x|) (-126) with h | h
    · rw [max_eq_right h]
      have : (2 : K) ^ ((-126 : ℤ) - 23) / 2 = 1 / 2 ^ 150 := by norm_num [zpow_neg]
      rw [this]; linarith
    · rw [max_eq_left h]
      have hl := Int.zpow_log_le_self (b := 2) (by norm_num) hpos
      have e : (2 : K) ^ (Int.log 2 |x| - 23) / 2 = 2 ^ Int.log 2 |x| / 2 ^ 24 := by
        rw [zpow_sub₀ (by norm_num)]
        norm_num [div_div]
      rw [e]
      have : (2 : K) ^ Int.log 2 |x| / 2 ^ 24 ≤ |x| / 2 ^ 24 := by
        apply div_le_div_of_nonneg_right _ (by positivity)
        exact_mod_cast hl
      have : (0 : K) < 1 / 2 ^ 150 := by positivity
      linarith
  generalize (2 : K) ^ (max (Int.log 2 |x|) (-126) - 23) = u at hu hux ⊢
  have h := roundEven_error (x / u)
  have e : (roundEven (x / u) : K) * u - x = ((roundEven (x / u) : K) - x / u) * u := by
    field_simp
  rw [e, abs_mul, abs_of_pos hu]
  have : |(roundEven (x / u) : K) - x / u| * u ≤ 1 / 2 * u := mul_le_mul_of_nonneg_right h hu.le
  linarith

end Verif.Search
