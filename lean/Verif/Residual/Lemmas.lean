import Verif.Residual.Spec
import Verif.Autodiff.Props

/-! # Auxiliary facts on the class `Residual` -/

namespace Verif.Residual

open Verif.Sparse Verif.Autodiff

theorem maxLoop_spec (n : ℝ) (r : Row ℝ) :
    n ≤ maxLoop n r ∧ (∀ e ∈ r, |e.2| ≤ maxLoop n r) ∧ (maxLoop n r = n ∨ ∃ e ∈ r, maxLoop n r = |e.2|) := by
  induction r generalizing n with
  | nil => exact ⟨le_refl _, by simp, Or.inl rfl⟩
  | cons a r ih =>
    rw [maxLoop]
    obtain ⟨h1, h2, h3⟩ := ih (if n < |a.2| then |a.2| else n)
    have hn : n ≤ (if n < |a.2| then |a.2| else n) := by split <;> linarith
    have ha : |a.2| ≤ (if n < |a.2| then |a.2| else n) := by
      by_cases h : n < |a.2|
      · rw [if_pos h]
      · rw [if_neg h]; exact not_lt.1 h
    refine ⟨hn.trans h1, ?_, ?_⟩
    · intro e he
      rcases List.mem_cons.1 he with rfl | he
      · exact ha.trans h1
      · exact h2 e he
    · rcases h3 with h3 | ⟨e, he, h3⟩
      · by_cases h : n < |a.2|
        · exact Or.inr ⟨a, by simp, by rw [h3, if_pos h]⟩
        · exact Or.inl (by rw [h3, if_neg h])
      · exact Or.inr ⟨e, by simp [he], h3⟩

theorem powLoop_eq (p : Nat) (n : ℝ) (r : Row ℝ) : powLoop p n r = n + (r.map fun e => |e.2| ^ p).sum := by
  induction r generalizing n with
  | nil => simp [powLoop]
  | cons a r ih => rw [powLoop, ih]; simp [add_assoc]

theorem sum_nonneg (p : Nat) (r : Row ℝ) : 0 ≤ (r.map fun e => |e.2| ^ p).sum := by
  apply List.sum_nonneg
  intro x hx
  obtain ⟨e, _, rfl⟩ := List.mem_map.1 hx
  positivity

theorem sum_pos (p : Nat) (r : Row ℝ) (e : Nat × ℝ) (he : e ∈ r) (h : e.2 ≠ 0) :
    0 < (r.map fun e => |e.2| ^ p).sum := by
  induction r with
  | nil => simp at he
  | cons a r ih =>
    rw [List.map_cons, List.sum_cons]
    have hr := sum_nonneg p r
    rcases List.mem_cons.1 he with rfl | he
    · have : 0 < |e.2| ^ p := by positivity
      linarith
    · have := ih he
      have : 0 ≤ |a.2| ^ p := by positivity
      linarith

theorem sum_zero (p : Nat) (hp : p ≠ 0) (r : Row ℝ) (h : ∀ e ∈ r, e.2 = 0) :
    (r.map fun e => |e.2| ^ p).sum = 0 := by
  induction r with
  | nil => rfl
  | cons a r ih =>
    rw [List.map_cons, List.sum_cons, ih (fun e he => h e (by simp [he])), h a (by simp)]
    simp [hp]

theorem sum_scale (p : Nat) (c : ℝ) (hc : 0 ≤ c) (r : Row ℝ) :
    ((scale r c).map fun e => |e.2| ^ p).sum = (r.map fun e => |e.2| ^ p).sum * c ^ p := by
  induction r with
  | nil => simp [scale]
  | cons a r ih =>
    rw [show scale (a :: r) c = (a.1, a.2 * c) :: scale r c from rfl, List.map_cons, List.sum_cons, ih, List.map_cons,
      List.sum_cons, abs_mul, abs_of_nonneg hc, mul_pow]
    ring

theorem factor_zero (p : Option Nat) (hp : p ≠ some 0) (r : Row ℝ) (h : ∀ e ∈ r, e.2 = 0) :
    factor (norm p r) = none := by
  cases p with
  | none =>
    obtain ⟨-, -, h3⟩ := maxLoop_spec 0 r
    have : maxLoop 0 r = 0 := by
      rcases h3 with h3 | ⟨e, he, h3⟩
      · exact h3
      · rw [h3, h e he, abs_zero]
    simp only [norm, factor, this, if_true]
  | some p =>
    have hp' : p ≠ 0 := fun h => hp (by rw [h])
    simp only [norm, root, if_neg hp', powLoop_eq, sum_zero p hp' r h, add_zero]
    rw [Real.zero_rpow (by positivity)]
    simp [factor]

theorem factor_pos (p : Option Nat) (hp : p ≠ some 0) (r : Row ℝ) (h : ∃ e ∈ r, e.2 ≠ 0) :
    ∃ c, 0 < c ∧ factor (norm p r) = some c ∧ UnitNorm p (scale r c) := by
  obtain ⟨e, he, h0⟩ := h
  cases p with
  | none =>
    obtain ⟨h1, h2, h3⟩ := maxLoop_spec 0 r
    have hpos : 0 < maxLoop 0 r := lt_of_lt_of_le (abs_pos.2 h0) (h2 e he)
    refine ⟨1 / maxLoop 0 r, by positivity, ?_, ?_⟩
    · simp only [norm, factor, if_neg hpos.ne']
    · constructor
      · intro f hf
        obtain ⟨g, hg, rfl⟩ := List.mem_map.1 hf
        simp only [abs_mul, abs_of_pos (show 0 < 1 / maxLoop 0 r by positivity)]
        rw [mul_one_div, div_le_one hpos]
        exact h2 g hg
      · rcases h3 with h3 | ⟨g, hg, h3⟩
        · exact absurd h3 hpos.ne'
        · refine ⟨(g.1, g.2 * (1 / maxLoop 0 r)), List.mem_map.2 ⟨g, hg, rfl⟩, ?_⟩
          simp only [abs_mul, abs_of_pos (show 0 < 1 / maxLoop 0 r by positivity)]
          rw [← h3, mul_one_div, div_self hpos.ne']
  | some p =>
    have hp' : p ≠ 0 := fun h => hp (by rw [h])
    have hS := sum_pos p r e he h0
    set S := (r.map fun e => |e.2| ^ p).sum with hSd
    have hR : 0 < S ^ (1 / (p : ℝ)) := Real.rpow_pos_of_pos hS _
    refine ⟨1 / S ^ (1 / (p : ℝ)), by positivity, ?_, ?_⟩
    · simp only [norm, root, if_neg hp', powLoop_eq, zero_add, factor, ← hSd, if_neg hR.ne']
    · change ((scale r _).map fun e => |e.2| ^ p).sum = 1
      rw [sum_scale p _ (by positivity), ← hSd, one_div, inv_pow, ← Real.rpow_natCast, ← Real.rpow_mul hS.le,
        one_div, inv_mul_cancel₀ (by exact_mod_cast hp'), Real.rpow_one, mul_inv_cancel₀ hS.ne']

theorem factor_unit (p : Option Nat) (hp : p ≠ some 0) (r : Row ℝ) (h : UnitNorm p r) :
    factor (norm p r) = some 1 := by
  cases p with
  | none =>
    obtain ⟨h1, e, he, h2⟩ := h
    obtain ⟨-, m2, m3⟩ := maxLoop_spec 0 r
    have hm : maxLoop 0 r = 1 := by
      apply le_antisymm
      · rcases m3 with m3 | ⟨g, hg, m3⟩
        · rw [m3]; norm_num
        · rw [m3]; exact h1 g hg
      · rw [← h2]; exact m2 e he
    simp [norm, factor, hm]
  | some p =>
    have hp' : p ≠ 0 := fun h => hp (by rw [h])
    have h' : (r.map fun e => |e.2| ^ p).sum = 1 := h
    simp [norm, root, if_neg hp', powLoop_eq, h', factor]

theorem scale_one {ι : Type} (r : RowI ι ℝ) : scale r 1 = r := by
  unfold scale; simp

theorem rescaleRow_spec (p : Option Nat) (hp : p ≠ some 0) (x : ℝ × Row ℝ × HRow) :
    ((∀ e ∈ x.2.1, e.2 = 0) ∧ rescaleRow p x = x) ∨
    ((∃ e ∈ x.2.1, e.2 ≠ 0) ∧ ∃ c, 0 < c ∧ rescaleRow p x = (x.1 * c, scale x.2.1 c, scale x.2.2 c) ∧
      UnitNorm p (scale x.2.1 c)) := by
  by_cases h : ∀ e ∈ x.2.1, e.2 = 0
  · exact Or.inl ⟨h, by rw [rescaleRow, factor_zero p hp _ h]⟩
  · push Not at h
    obtain ⟨c, hc, h1, h2⟩ := factor_pos p hp _ h
    exact Or.inr ⟨h, c, hc, by rw [rescaleRow, h1], h2⟩

theorem rescaleRow_idem (p : Option Nat) (hp : p ≠ some 0) (x : ℝ × Row ℝ × HRow) :
    rescaleRow p (rescaleRow p x) = rescaleRow p x := by
  rcases rescaleRow_spec p hp x with ⟨_, h⟩ | ⟨_, c, _, h, hu⟩
  · rw [h, h]
  · rw [h, rescaleRow]
    simp only [factor_unit p hp _ hu, scale_one, mul_one]

theorem each_fits (r : Res) (h : r.Fits) (body) : ∃ r', r.each body = some r' := by
  unfold Res.each
  rw [if_neg]
  · exact ⟨_, rfl⟩
  · rintro ⟨_, h1, h2⟩
    rcases h with h | h
    · exact h1 (by simp [Res.hempty, h])
    · exact h2 h

theorem each_spec {r r' : Res} {body} (h : r.each body = some r') :
    r'.first = r.first ∧ r'.last = r.last ∧ r'.hfirst = r.hfirst ∧ r'.hlast = r.hlast ∧
    r'.lfirst = r.lfirst ∧ r'.llast = r.llast ∧
    ∀ k, (r.Has k → r'.res k = (body (r.res k, r.jac k, r.hess k)).1 ∧
        r'.jac k = (body (r.res k, r.jac k, r.hess k)).2.1 ∧
        r'.hess k = (if r.hfirst = r.hlast then r.hess k else (body (r.res k, r.jac k, r.hess k)).2.2)) ∧
      (¬ r.Has k → r'.res k = r.res k ∧ r'.jac k = r.jac k ∧ r'.hess k = r.hess k) := by
  unfold Res.each at h
  split at h
  · exact absurd h (by simp)
  · injection h with h
    subst h
    refine ⟨rfl, rfl, rfl, rfl, rfl, rfl, fun k => ?_⟩
    constructor
    · intro hk
      have hk' : r.first ≤ k ∧ k < r.last := hk
      simp only [hk', and_self, if_true, true_and]
      by_cases he : r.hfirst = r.hlast <;> simp [he, Res.hempty]
    · intro hk
      have hk' : ¬ (r.first ≤ k ∧ k < r.last) := hk
      have hk2 : ¬ (r.first ≤ k ∧ k < r.last ∧ ¬ (r.hempty = true)) := fun h => hk' ⟨h.1, h.2.1⟩
      simp only [if_neg hk', if_neg hk2, and_self]

theorem sumSq_eq (v : Nat → ℝ) (ret : ℝ) (k n : Nat) :
    sumSq v ret k n = ret + ((List.range n).map fun i => v (k + i) ^ 2).sum := by
  induction n generalizing ret k with
  | zero => simp [sumSq]
  | succ n ih =>
    rw [sumSq, ih, List.range_succ_eq_map, List.map_cons, List.sum_cons, List.map_map, Nat.add_zero, pow_two, ← add_assoc]
    congr 2
    apply List.map_congr_left
    intro i _
    simp only [Function.comp, Nat.succ_eq_add_one]
    rw [show k + 1 + i = k + (i + 1) by omega]

/-- The sum of squares over an interval. -/
theorem sum_split (v : Nat → ℝ) (a b c : Nat) (h1 : a ≤ b) (h2 : b ≤ c) :
    ((List.range (c - a)).map fun i => v (a + i) ^ 2).sum =
      ((List.range (b - a)).map fun i => v (a + i) ^ 2).sum + ((List.range (c - b)).map fun i => v (b + i) ^ 2).sum := by
  rw [show c - a = (b - a) + (c - b) by omega, List.range_add, List.map_append, List.sum_append, List.map_map]
  congr 2
  apply List.map_congr_left
  intro i _
  simp only [Function.comp]
  rw [show a + (b - a + i) = b + i by omega]

theorem tile_le {a b : Nat} {rs : List Res} (h : Tile a rs b) : a ≤ b := by
  induction rs generalizing a with
  | nil => exact le_of_eq h
  | cons r rs ih => obtain ⟨h1, h2, h3⟩ := h; have := ih h3; omega

theorem tile_sum (rs : List Res) (v : Nat → ℝ) (a b : Nat) (h : Tile a rs b) (hv : Global rs v) :
    (rs.map fun r => sumSq r.res 0 r.first (r.last - r.first)).sum =
      ((List.range (b - a)).map fun i => v (a + i) ^ 2).sum := by
  induction rs generalizing a with
  | nil => simp [show a = b from h]
  | cons r rs ih =>
    obtain ⟨h1, h2, h3⟩ := h
    rw [List.map_cons, List.sum_cons, ih r.last h3 (fun q hq => hv q (by simp [hq])),
      sum_split v a r.last b (h1 ▸ h2) (tile_le h3), sumSq_eq, zero_add, h1]
    congr 2
    apply List.map_congr_left
    intro i hi
    have hi' := List.mem_range.1 hi
    rw [hv r (by simp) (a + i) ⟨by omega, by omega⟩]

end Verif.Residual
