import Verif.Matching.Props
/-
A matrix of real numbers that meets the hypotheses of C118.
-/

namespace Verif.Matching.Example
open Verif.Heap (put)
/-- Real numbers. -/
noncomputable def reals : Arith ℝ where
  zero := 0
  max := 10 ^ 308
  tiny := 1 / 10 ^ 30
  small := 1 / 10 ^ 12
  add := (· + ·)
  sub := (· - ·)
  abs := fun x => |x|
  log := Real.log
  lt := fun x y => decide (x < y)
  le := fun x y => decide (x ≤ y)
  isZero := fun x => decide (x = 0)

theorem reals_exact : Exact reals where
  zero := rfl
  add := fun _ _ => rfl
  sub := fun _ _ => rfl
  abs := fun _ => rfl
  lt := fun x y => by simp [reals]
  le := fun x y => by simp [reals]
  isZero := fun x => by simp [reals]

/-- Rows and columns in different order. -/
noncomputable def realSample : Nat → List (Nat × ℝ) := fun k => if k = 0 then [(1, 2)] else [(0, -3)]


theorem reals_lt (x y : ℝ) : reals.lt x y = decide (x < y) := rfl
theorem reals_le (x y : ℝ) : reals.le x y = decide (x ≤ y) := rfl
theorem reals_isZero (x : ℝ) : reals.isZero x = decide (x = 0) := rfl
theorem reals_abs (x : ℝ) : reals.abs x = |x| := rfl
theorem reals_sub (x y : ℝ) : reals.sub x y = x - y := rfl
theorem reals_zero : reals.zero = 0 := rfl
theorem reals_max : reals.max = 10 ^ 308 := rfl
theorem reals_tiny : reals.tiny = 1 / 10 ^ 30 := rfl
theorem reals_log : reals.log = Real.log := rfl

theorem entries2 : entries reals 2 realSample 2 = [(1, 2), (0, 3)] := by
  simp [entries, localRow, realSample, List.range, List.range.loop, reals_abs]
theorem entries1 : entries reals 2 realSample 1 = [(1, 2)] := by
  simp [entries, localRow, realSample, List.range, List.range.loop, reals_abs]
theorem entries0 : entries reals 2 realSample 0 = [] := by
  simp [entries, List.range, List.range.loop]

/-- The matrix of absolute values. -/
noncomputable def realAbs : Csr ℝ := absolute reals 2 realSample
theorem ra_col0 : realAbs.col 0 = 1 := by simp [realAbs, absolute, entries2]
theorem ra_col1 : realAbs.col 1 = 0 := by simp [realAbs, absolute, entries2]
theorem ra_val0 : realAbs.val 0 = 2 := by simp [realAbs, absolute, entries2]
theorem ra_val1 : realAbs.val 1 = 3 := by simp [realAbs, absolute, entries2]
theorem ra_adr0 : realAbs.adr 0 = 0 := by simp [realAbs, absolute, entries0]
theorem ra_adr1 : realAbs.adr 1 = 1 := by simp [realAbs, absolute, entries1]
theorem ra_adr2 : realAbs.adr 2 = 2 := by simp [realAbs, absolute, entries2]
theorem ra_max : columnMax reals realAbs (List.range (realAbs.adr 2)) (fun _ => reals.zero) =
    put (put (fun _ => 0) 1 2) 0 3 := by
  rw [ra_adr2]
  simp [List.range, List.range.loop, columnMax, ra_col0, ra_col1, ra_val0, ra_val1, reals_lt,
    reals_zero, put]
/-- The matrix of costs. -/
noncomputable def realCost : Csr ℝ := costMatrix reals 2 realSample
theorem realCost_eq : realCost = costs reals realAbs (put (put (fun _ => 0) 1 2) 0 3) := by
  rw [← ra_max]; rfl
theorem rc_val0 : realCost.val 0 = 0 := by
  rw [realCost_eq]
  simp [costs, ra_col0, ra_val0, put, costOf, reals_isZero, reals_sub]
theorem rc_val1 : realCost.val 1 = 0 := by
  rw [realCost_eq]
  simp [costs, ra_col1, ra_val1, put, costOf, reals_isZero, reals_sub]
theorem rc_col0 : realCost.col 0 = 1 := ra_col0
theorem rc_col1 : realCost.col 1 = 0 := ra_col1
theorem rc_row0 : realCost.row 0 = [0] := by
  show realAbs.row 0 = [0]
  simp [Csr.row, ra_adr0, ra_adr1]
theorem rc_row1 : realCost.row 1 = [1] := by
  show realAbs.row 1 = [1]
  simp [Csr.row, ra_adr1, ra_adr2]
theorem su : startU reals 2 realSample = put (put (fun _ => 10 ^ 308) 1 0) 0 0 := by
  show columnMin reals realAbs realCost (columnMax reals realAbs (List.range (realAbs.adr 2))
    (fun _ => reals.zero)) (List.range (realAbs.adr 2)) (fun _ => reals.max) = _
  rw [ra_max, ra_adr2]
  simp [List.range, List.range.loop, columnMin, ra_col0, ra_col1, ra_val0, ra_val1, rc_col0, rc_col1,
    rc_val0, rc_val1, reals_lt, reals_isZero, reals_max, put]
theorem sv0 : startV reals 2 realSample 0 = 0 := by
  show rowMin reals realCost (startU reals 2 realSample) (realCost.row 0) reals.max = 0
  rw [rc_row0, su]
  simp [rowMin, reducedU, rc_val0, rc_col0, put, reals_lt, reals_sub, reals_max]
theorem sv1 : startV reals 2 realSample 1 = 0 := by
  show rowMin reals realCost (startU reals 2 realSample) (realCost.row 1) reals.max = 0
  rw [rc_row1, su]
  simp [rowMin, reducedU, rc_val1, rc_col1, put, reals_lt, reals_sub, reals_max]
theorem gap0 : gap reals realCost (initial reals 2 realSample) 0 0 = 0 := by
  simp [gap, initial, start, rc_val0, rc_col0, su, sv0, put, reals_abs, reals_sub]
theorem gap1 : gap reals realCost (initial reals 2 realSample) 1 1 = 0 := by
  simp [gap, initial, start, rc_val1, rc_col1, su, sv1, put, reals_abs, reals_sub]
/-- The state after the first stage. -/
noncomputable def realEnd : St ℝ :=
  pair realCost (pair realCost (initial reals 2 realSample) 0 0) 1 1
theorem realMatch : matching reals realCost (startU reals 2 realSample) (startV reals 2 realSample) =
    some realEnd := by
  have h0 : gap reals realCost (start reals 2 (startU reals 2 realSample) (startV reals 2 realSample)) 0 0 = 0 := gap0
  have h1 : gap reals realCost (pair realCost (start reals 2 (startU reals 2 realSample) (startV reals 2 realSample)) 0 0) 1 1 = 0 := gap1
  have hn : realCost.n = 2 := rfl
  have hm : matchAll reals realCost (List.range 2) (start reals 2 (startU reals 2 realSample) (startV reals 2 realSample)) = realEnd := by
    have e1 : matchRow reals realCost 0 [0] (start reals 2 (startU reals 2 realSample) (startV reals 2 realSample)) =
        pair realCost (start reals 2 (startU reals 2 realSample) (startV reals 2 realSample)) 0 0 := by
      simp only [matchRow, h0]
      rw [if_pos]
      simp [reals_lt, reals_tiny, start]
    have e2 : matchRow reals realCost 1 [1] (pair realCost (start reals 2 (startU reals 2 realSample) (startV reals 2 realSample)) 0 0) = realEnd := by
      simp only [matchRow, h1]
      rw [if_pos]
      · rfl
      · simp [reals_lt, reals_tiny, start, pair, rc_col1, rc_col0, put]
    simp only [List.range, List.range.loop, matchAll, rc_row0, rc_row1, e1, e2]
  have i0 : realEnd.iperm 0 = some 1 := by simp [realEnd, pair, put, rc_col0]
  have i1 : realEnd.iperm 1 = some 0 := by simp [realEnd, pair, put, rc_col1]
  unfold matching
  rw [hn, hm]
  simp [List.range, List.range.loop, stepAll, rounds, round, i0, i1]

theorem realGap : ∀ k, k < 2 → ∀ q ∈ (costMatrix reals 2 realSample).row k,
    gap reals (costMatrix reals 2 realSample) (initial reals 2 realSample) k q = 0 := by
  intro k hk q hq
  have : k = 0 ∨ k = 1 := by omega
  change q ∈ realCost.row k at hq
  show gap reals realCost (initial reals 2 realSample) k q = 0
  rcases this with h | h <;> subst h
  · rw [rc_row0] at hq
    rw [List.mem_singleton.1 hq, gap0]
  · rw [rc_row1] at hq
    rw [List.mem_singleton.1 hq, gap1]

-- the hypotheses of `C118_largest_product` hold for it
example : 0 ≤ reals.max ∧ 0 < reals.tiny ∧ reals.log = Real.log ∧
    (∀ r c v, r < 2 → c < 2 → (c, v) ∈ realSample r → v ≠ 0) := by
  refine ⟨by simp [reals_max], by simp [reals_tiny], rfl, ?_⟩
  intro r c v _ _ h
  unfold realSample at h
  split at h <;> simp at h <;> rw [h.2] <;> norm_num

example : ∃ s p, reorder reals 2 realSample = some (s, p) ∧ (∀ k, k < 2 → (s.iperm k).isSome) := by
  obtain ⟨s, p, h1, _⟩ := C117_permutation_partial reals reals_exact.hle 2 realSample (by
    intro k hk q hq _
    rw [realGap k hk q hq]; simp [reals_lt, reals_tiny])
  refine ⟨s, p, h1, ?_⟩
  have hm : matching reals (costMatrix reals 2 realSample) (startU reals 2 realSample)
    (startV reals 2 realSample) = some realEnd := realMatch
  rw [reorder_eq, hm] at h1
  simp only at h1
  have e : realEnd = s := by
    cases hf : fillGaps (List.range 2) (gaps 2 realEnd.perm) realEnd.perm with
    | none => rw [hf] at h1; simp at h1
    | some p' => rw [hf] at h1; exact (Prod.mk.inj (Option.some.inj h1)).1
  subst e
  intro k hk
  have : k = 0 ∨ k = 1 := by omega
  rcases this with h | h <;> subst h <;> simp [realEnd, pair, put]

-- the hypotheses of `C118_real` hold for it with `B = 0`
example : (2 * (2 : Nat) : ℝ) * 0 < reals.max ∧
    (∀ r r' c v w, r < 2 → r' < 2 → c < 2 → (c, v) ∈ realSample r → (c, w) ∈ realSample r' →
      Real.log (|w| / |v|) ≤ 0) ∧
    (∀ c, c < 2 → (c, if c = 0 then (-3 : ℝ) else 2) ∈ realSample (1 - c)) := by
  refine ⟨by simp [reals_max], ?_, ?_⟩
  · intro r r' c v w _ _ _ h h'
    unfold realSample at h h'
    split at h <;> split at h' <;> simp at h h'
    · rw [h.2, h'.2]; norm_num
    · omega
    · omega
    · rw [h.2, h'.2]; norm_num
  · intro c hc
    have : c = 0 ∨ c = 1 := by omega
    rcases this with e | e <;> subst e <;> simp [realSample]
end Verif.Matching.Example
