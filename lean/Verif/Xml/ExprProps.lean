import Verif.Xml.ExprSize

/-!
# C80: expressions in xml files have their arithmetical value
-/

namespace Verif.Xml

variable {K : Type} [Field K]

/-- C80, the full claim without the second hypothesis: an expression of the usual grammar is evaluated without an error
and to its value. Missing: a minus directly after a right bracket, see `C80_minus_after_bracket_fails`. -/
theorem C80_evaluate_partial (num : Str → K) (s : Str) (x : K) (h : Means (fun w => some (num w)) .sum s x)
    (hm : ¬ [')', '-'] <:+: s) : evaluate num s = (some x, false) :=
  evaluate_means (fun _ _ h => by simpa using h) h hm

/-- C80: the number of repetitions is the value of the expression after `*`, where `SetSize` is the number of elements
of the set, cut to an integer. -/
theorem C80_multiplier_partial (num : Str → ℚ) (n : Nat) (hnum : num (decimal n) = n) (s : Str) (x : ℚ)
    (h : Means (withSize num n) .sum s x) (hm : ¬ [')', '-'] <:+: s) : convertMultiplier num s n = castInt x := by
  have hw := decimal_word n
  have h1 := evaluate_means (num := num) (fun w x h => by simpa using h) (means_subst hnum h)
    (fun hc => hm (subst_infix hw.1 (fun hh => hw.2 _ hh (by decide)) (fun hh => hw.2 _ hh (by decide)) s 0 hc))
  unfold convertMultiplier
  rw [if_neg (means_ne_nil h), h1]
  rfl

/-- C80: a value is cut to an integer towards zero: the integer lies between zero and the value and is less than one away
from it; values outside of the range of `int` have no defined integer. -/
theorem C80_cut (x : ℚ) : (∀ k, castInt x = some k → |x - k| < 1 ∧ |(k : ℚ)| ≤ |x| ∧ 0 ≤ x * k) ∧
    ((-2 ^ 31 ≤ x ∧ x < 2 ^ 31) → castInt x ≠ none) ∧
    (castInt x ≠ none → -2 ^ 31 - 1 < x ∧ x < 2 ^ 31) := by
  have key : ∃ t : Int, castInt x = (if -2 ^ 31 ≤ t ∧ t < 2 ^ 31 then some t else none) ∧
      ((x < 0 ∧ x ≤ t ∧ (t : ℚ) < x + 1 ∧ (t : ℚ) ≤ 0) ∨ (0 ≤ x ∧ (t : ℚ) ≤ x ∧ x < t + 1 ∧ (0 : ℚ) ≤ t)) := by
    by_cases h : x < 0
    · refine ⟨⌈x⌉, by unfold castInt; simp only [if_pos h], Or.inl ⟨h, Int.le_ceil x, Int.ceil_lt_add_one x, ?_⟩⟩
      have : ⌈x⌉ ≤ 0 := Int.ceil_le.2 (by simpa using le_of_lt h)
      exact_mod_cast this
    · have h0 : 0 ≤ x := not_lt.1 h
      refine ⟨⌊x⌋, by unfold castInt; simp only [if_neg h], Or.inr ⟨h0, Int.floor_le x, Int.lt_floor_add_one x, ?_⟩⟩
      exact_mod_cast Int.floor_nonneg.2 h0
  obtain ⟨t, e, ht⟩ := key
  rw [e]
  refine ⟨fun k hk => ?_, fun hx => ?_, fun hx => ?_⟩
  · split at hk
    · injection hk with hk
      subst hk
      rcases ht with ⟨h1, h2, h3, h4⟩ | ⟨h1, h2, h3, h4⟩
      · refine ⟨abs_lt.2 ⟨by linarith, by linarith⟩, ?_, mul_nonneg_of_nonpos_of_nonpos (le_of_lt h1) h4⟩
        rw [abs_of_nonpos h4, abs_of_neg h1]
        linarith
      · refine ⟨abs_lt.2 ⟨by linarith, by linarith⟩, ?_, mul_nonneg h1 h4⟩
        rw [abs_of_nonneg h4, abs_of_nonneg h1]
        exact h2
    · cases hk
  · have h1 : (-2 ^ 31 : Int) ≤ t := by
      rcases ht with ⟨h1, h2, h3, h4⟩ | ⟨h1, h2, h3, h4⟩
      · have : ((-2 ^ 31 : Int) : ℚ) ≤ t := by push_cast; linarith
        exact_mod_cast this
      · have : ((-2 ^ 31 : Int) : ℚ) ≤ t := by push_cast; linarith
        exact_mod_cast this
    have h2 : t < (2 ^ 31 : Int) := by
      rcases ht with ⟨h1, h2, h3, h4⟩ | ⟨h1, h2, h3, h4⟩
      · have : (t : ℚ) < ((2 ^ 31 : Int) : ℚ) := by push_cast; linarith
        exact_mod_cast this
      · have : (t : ℚ) < ((2 ^ 31 : Int) : ℚ) := by push_cast; linarith
        exact_mod_cast this
    rw [if_pos ⟨h1, h2⟩]
    simp
  · split at hx
    · next hr =>
      have h1 : ((-2 ^ 31 : Int) : ℚ) ≤ t := by exact_mod_cast hr.1
      have h2 : (t : ℚ) + 1 ≤ ((2 ^ 31 : Int) : ℚ) := by
        have : t + 1 ≤ (2 ^ 31 : Int) := by omega
        exact_mod_cast this
      push_cast at h1 h2
      rcases ht with ⟨h3, h4, h5, h6⟩ | ⟨h3, h4, h5, h6⟩
      · exact ⟨by linarith, by linarith⟩
      · exact ⟨by linarith, by linarith⟩
    · exact absurd rfl hx

example : castInt (7 / 2) = some 3 ∧ castInt (-7 / 2) = some (-3) ∧ castInt (2 ^ 31) = none := by decide +kernel

/-- C80: without an expression there is one repetition. -/
theorem C80_no_multiplier (num : Str → ℚ) (n : Nat) : convertMultiplier num [] n = some 1 := rfl

/-- The value of a natural number, for the examples. -/
def dig (w : Str) : ℚ := w.foldl (fun a c => 10 * a + (c.toNat - 48 : Nat)) 0

/-- `(1)-2` -/
def afterBracket : Str := ['(', '1', ')', '-', '2']

/-- C80 fails: `(1)-2` has the value -1, and its evaluation ends with an error, since a minus after a bracket is always
that of one argument. -/
theorem C80_minus_after_bracket_fails :
    Means (fun w => some (dig w)) .sum afterBracket (1 - 2) ∧ (evaluate dig afterBracket).2 = true := by
  have h1 : dig ['1'] = 1 := by decide +kernel
  have h2 : dig ['2'] = 2 := by decide +kernel
  refine ⟨.sub (s := ['(', '1', ')']) (t := ['2']) (.product (.factor (.bracket (s := ['1']) (.product (.factor
    (.word ⟨by simp, by decide⟩ (by rw [h1]))))))) (.factor (.word ⟨by simp, by decide⟩ (by rw [h2]))), ?_⟩
  decide +kernel

/-- C80 fails: a minus of one argument after another operation, as in `2*-3`, ends with an error. -/
theorem C80_minus_after_operation_fails : (evaluate dig ['2', '*', '-', '3']).2 = true ∧
    (evaluate dig ['2', '+', '-', '3']).2 = true := by decide +kernel

/-- C80 fails: a number with a negative exponent is a difference, whatever `atof` makes of `1e`. -/
theorem C80_exponent_fails (num : Str → K) :
    evaluate num ['1', 'e', '-', '5'] = (some (num ['1', 'e'] - num ['5']), false) := rfl

/-- C80 fails: a missing right bracket is not reported. -/
theorem C80_unbalanced_fails (num : Str → K) : evaluate num ['(', '1', '+', '2'] = (some (num ['1'] + num ['2']), false) :=
  rfl

/-- C80 fails: the error of an expression is not reported by the reader of data, 1.0e+20 is cast to an integer. -/
theorem C80_error_ignored_fails : (evaluate dig ['2', '*', '-', '3']).2 = true ∧
    convertMultiplier dig ['2', '*', '-', '3'] 1 = none := by decide +kernel

/-- `-2*(SetSize+10)/4+SetSize` -/
def sampleExpr : Str := ['-', '2', '*', '('] ++ setSizeName ++ ['+', '1', '0', ')', '/', '4', '+'] ++ setSizeName

private theorem sampleMeans : Means (withSize dig 12) .sum sampleExpr (-(2 * ((12 : Nat) + 10) / 4) + (12 : Nat)) := by
  have w1 : withSize dig 12 setSizeName = some ((12 : Nat) : ℚ) := by simp [withSize]
  have w2 : withSize dig 12 ['2'] = some 2 := by decide +kernel
  have w3 : withSize dig 12 ['4'] = some 4 := by decide +kernel
  have w4 : withSize dig 12 ['1', '0'] = some 10 := by decide +kernel
  have hs : Means (withSize dig 12) .factor setSizeName ((12 : Nat) : ℚ) := .word ⟨by decide, by decide⟩ w1
  have h2 := Means.word (val := withSize dig 12) ⟨by decide, by decide⟩ w2
  have h4 := Means.word (val := withSize dig 12) ⟨by decide, by decide⟩ w3
  have h10 := Means.word (val := withSize dig 12) ⟨by decide, by decide⟩ w4
  exact .plus (.minus (.over (.times (.factor h2) (.bracket (.plus (.product (.factor hs)) (.factor h10)))) h4 (by norm_num)))
    (.factor hs)

/-- A case of C80: with 12 elements `-2*(SetSize+10)/4+SetSize` is 1. -/
example : convertMultiplier dig sampleExpr 12 = some 1 := by
  rw [C80_multiplier_partial dig 12 (by decide +kernel) sampleExpr _ sampleMeans (by decide +kernel)]
  decide +kernel

/-- A case of the first theorem: operations of one kind go from left to right. -/
example : evaluate dig ['8', '-', '2', '-', '1'] = (some (8 - 2 - 1), false) := by
  have h1 : dig ['1'] = 1 := by decide +kernel
  have h2 : dig ['2'] = 2 := by decide +kernel
  have h8 : dig ['8'] = 8 := by decide +kernel
  exact C80_evaluate_partial dig _ _ (.sub (s := ['8', '-', '2']) (.sub (s := ['8']) (.product (.factor
    (.word ⟨by simp, by decide⟩ (by rw [h8])))) (.factor (.word ⟨by simp, by decide⟩ (by rw [h2]))))
    (.factor (.word ⟨by simp, by decide⟩ (by rw [h1])))) (by decide)

end Verif.Xml
