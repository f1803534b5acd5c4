import Verif.Krylov.Model
import Mathlib.Tactic.Linarith
import Mathlib.Tactic.Abel
import Mathlib.Tactic.NormNum
import Mathlib.Tactic.Module
import Mathlib.Tactic.FinCases
import Mathlib.LinearAlgebra.Matrix.Notation

/-!
# C46: the residual reported by the iterative solvers is the residual of the returned solution
-/

namespace Verif.Krylov

open Matrix Classical

/-! ### BCGS with a preconditioner -/

section BCGS
variable {n : Nat} {P : Problem n}

theorem second_inv {f : Vec n → Vec n} (hf : P.prec = some f) {s : St n} (hr : s.r = P.b - P.A *ᵥ s.x) (hv : s.v = P.A *ᵥ s.y) (hl : s.lastResid = norm s.r) :
    (second P s).r = P.b - P.A *ᵥ (second P s).x ∧ (second P s).lastResid = norm (second P s).r := by
  unfold second
  simp only [apply, hf]
  split
  · exact ⟨hr, hl⟩
  · rename_i w _
    refine ⟨?_, rfl⟩
    simp only [update, hr, hv, mulVec_add, mulVec_smul]
    abel

theorem first_inv {f : Vec n → Vec n} (hf : P.prec = some f) {s : St n} (beta : ℝ) (hr : s.r = P.b - P.A *ᵥ s.x) (hl : s.lastResid = norm s.r) :
    (first P s beta).r = P.b - P.A *ᵥ (first P s beta).x ∧ (first P s beta).lastResid = norm (first P s beta).r := by
  unfold first
  simp only [apply, hf]
  split
  · exact ⟨hr, hl⟩
  · exact second_inv hf hr rfl hl

theorem iter_inv {f : Vec n → Vec n} (hf : P.prec = some f) {s : St n} (o : Vec n) (hr : s.r = P.b - P.A *ᵥ s.x) (hl : s.lastResid = norm s.r) :
    (iter P o s).r = P.b - P.A *ᵥ (iter P o s).x ∧ (iter P o s).lastResid = norm (iter P o s).r := by
  unfold iter
  simp only []
  split
  · exact ⟨hr, hl⟩
  · split
    · exact ⟨hr, hl⟩
    · exact first_inv hf _ hr hl

/-- **C46**, BCGS.  With any preconditioner, linear or not, at every moment of the iteration, whatever random perturbations were made, the residual that `Residual()` reports is
the length of `b - A x` for the current `x`. -/
theorem C46_bcgs_partial {f : Vec n → Vec n} (hf : P.prec = some f) {s : St n} (h : Reach P s) :
    s.lastResid = norm (P.b - P.A *ᵥ s.x) := by
  have : s.r = P.b - P.A *ᵥ s.x ∧ s.lastResid = norm s.r := by
    induction h with
    | init => exact ⟨rfl, rfl⟩
    | step s o _ _ ih => exact iter_inv hf o ih.1 ih.2
  rw [this.2, this.1]

/-- **C46**, BCGS: if `Solve` returns `true` the residual of the returned solution satisfies one of the tolerances. -/
theorem C46_bcgs_success_partial {f : Vec n → Vec n} (hf : P.prec = some f) {s : St n} (h : Reach P s) (hs : Small P s.lastResid) :
    norm (P.b - P.A *ᵥ s.x) < P.atol ∨ norm (P.b - P.A *ᵥ s.x) < P.rtol * norm (P.b - P.A *ᵥ P.x0) := by
  rw [C46_bcgs_partial hf h] at hs
  exact hs

/-- **C46**, BCGS: when the iteration stops because of a tolerance, `Solve` returns `true`; it never goes on after a tolerance was met. -/
theorem C46_bcgs_stop_partial {s : St n} (h : Reach P s) (hh : s.halt = false) : ¬ Small P s.lastResid := by
  induction h with
  | init =>
    intro hs
    have : decide (Small P (resid0 P) ∨ resid0 P = 0) = false := hh
    rw [decide_eq_false_iff_not] at this
    exact this (Or.inl hs)
  | step s o _ hb ih =>
    have ih := ih hb
    revert hh
    unfold iter
    simp only []
    split
    · intro _; exact ih
    · split
      · intro h; cases h
      · unfold first
        simp only []
        split
        · intro h; cases h
        · unfold second
          simp only []
          split
          · intro h; cases h
          · intro h hs
            have h : decide _ = false := h
            rw [decide_eq_false_iff_not] at h
            exact h (Or.inr (Or.inl hs))

end BCGS

/-! ### The number of iterations -/

/-- **C46**, BCGS: not more than `maxits + 1` iterations that change the solution are made. -/
theorem C46_bcgs_iterations_partial {n : Nat} {P : Problem n} {s : St n} (h : Reach P s) : s.i ≤ P.maxits + 1 := by
  have : (s.halt = false → s.i ≤ P.maxits) ∧ s.i ≤ P.maxits + 1 := by
    induction h with
    | init => exact ⟨fun _ => Nat.zero_le _, Nat.zero_le _⟩
    | step s o _ hb ih =>
      have hi := ih.1 hb
      unfold iter
      simp only []
      split
      · exact ⟨fun _ => hi, by simpa using ih.2⟩
      · split
        · exact ⟨fun h => (by cases h), ih.2⟩
        · unfold first
          simp only []
          split
          · exact ⟨fun h => (by cases h), ih.2⟩
          · unfold second
            simp only []
            split
            · exact ⟨fun h => (by cases h), ih.2⟩
            · refine ⟨fun h => ?_, Nat.succ_le_succ hi⟩
              have h : decide _ = false := h
              rw [decide_eq_false_iff_not] at h
              simp only [not_or] at h
              have := h.2.2
              simp only [update]
              omega
  exact this.2

/-! ### BCGS without a preconditioner -/

/-- The system `x = 1` of one equation without a preconditioner. -/
noncomputable def single : Problem 1 :=
  { A := 1, b := fun _ => 1, x0 := 0, prec := none, atol := 1 / 2, rtol := 1 / 2, divtol := 10, maxits := 10 }

theorem dot_one (a b : ℝ) : dot (fun _ : Fin 1 => a) (fun _ => b) = a * b := by simp [dot]

theorem norm_one (a : ℝ) : norm (fun _ : Fin 1 => a) = |a| := by
  rw [norm, dot_one, Real.sqrt_mul_self_eq_abs]

theorem single_resid0 : resid0 single = 1 := by
  have : single.b - single.A *ᵥ single.x0 = fun _ => 1 := by
    funext k
    simp [single]
  rw [resid0, this, norm_one]
  simp

theorem single_start : ¬ (Small single (resid0 single) ∨ resid0 single = 0) := by
  show ¬ ((resid0 single < 1 / 2 ∨ resid0 single < 1 / 2 * resid0 single) ∨ resid0 single = 0)
  rw [single_resid0]
  norm_num

theorem single_iter : (iter single 0 (St.init single)).x = 0 ∧ (iter single 0 (St.init single)).lastResid = 0 := by
  have hi : St.init single = { x := 0, r := fun _ => 1, r0 := fun _ => 1, p := 0, v := 0, y := 0, z := 0, rho := 1, alpha := 1, omega := 1, lastResid := 1, i := 0, halt := false } := by
    have h1 : single.b - single.A *ᵥ single.x0 = fun _ => 1 := by
      funext k
      simp [single]
    have h2 := single_start
    rw [single_resid0] at h2
    unfold St.init
    simp only [h1, single_resid0]
    congr 1
    · funext k; simp
    · exact decide_eq_false h2
  rw [hi]
  have hh : ¬ (1 : ℝ) > huge := by unfold huge; norm_num
  unfold iter
  simp only [dot_one, mul_one, abs_one]
  rw [if_neg (by unfold tiny; norm_num)]
  have q1 : quot (1 / 1 * 1 : ℝ) 1 = some 1 := by
    unfold quot
    rw [if_neg (by norm_num), if_neg (by norm_num; exact le_of_not_gt hh)]
    norm_num
  have q2 : quot (1 : ℝ) 1 = some 1 := by
    unfold quot
    rw [if_neg (by norm_num), if_neg (by norm_num; exact le_of_not_gt hh)]
    norm_num
  simp only [mul_one, div_one] at q1 ⊢
  rw [q1]
  simp only [first, apply]
  have hp : single.prec = none := rfl
  have hA : single.A = 1 := rfl
  have hpv : ((fun _ => 1 : Vec 1) + (1 : ℝ) • ((0 : Vec 1) - (1 : ℝ) • (0 : Vec 1))) = fun _ => 1 := by
    funext k; simp
  simp only [hp, hA, hpv, Matrix.one_mulVec, dot_one, mul_one]
  rw [q2]
  simp only [second, apply, hp, hA]
  have hs : ((fun _ => 1 : Vec 1) - (1 : ℝ) • (fun _ => 1 : Vec 1)) = fun _ => 0 := by funext k; simp
  simp only [hs, Matrix.one_mulVec, dot_one, mul_zero, if_true, update]
  constructor
  · simp
  · have : ((fun _ => 0 : Vec 1) - (0 : ℝ) • (fun _ => 0 : Vec 1)) = fun _ => 0 := by funext k; simp
    rw [this, norm_one]
    simp

/-- **C46 fails** for BCGS without a preconditioner: the vectors `y` and `z` are filled only by the preconditioner, so the solution is never changed.  For the equation `x = 1`
the method stops after one iteration, reports residual `0` and success, and returns the initial approximation `0`, whose residual is `1`. -/
theorem C46_bcgs_noprec_fails : ∃ s, Reach single s ∧ Small single s.lastResid ∧ s.lastResid = 0 ∧ s.x = single.x0 ∧ norm (single.b - single.A *ᵥ s.x) = 1 := by
  refine ⟨iter single 0 (St.init single), Reach.step _ _ .init ?_, ?_, single_iter.2, single_iter.1, ?_⟩
  · exact decide_eq_false single_start
  · rw [single_iter.2]
    left
    simp [single]
  · rw [single_iter.1]
    exact single_resid0

/-! ### BiCGStab(l) -/

section BCGSL
variable {n : Nat} {P : Problem n}

/-- The preconditioner of `P` is linear (or missing). -/
def LinearPrec (P : Problem n) : Prop :=
  ∀ f, P.prec = some f → (∀ a b, f (a + b) = f a + f b) ∧ ∀ (c : ℝ) a, f (c • a) = c • f a

theorem op_add (hL : LinearPrec P) (a b : Vec n) : op P (a + b) = op P a + op P b := by
  unfold op
  cases h : P.prec with
  | none => simp [mulVec_add]
  | some f => simp [(hL f h).1, mulVec_add]

theorem op_smul (hL : LinearPrec P) (c : ℝ) (a : Vec n) : op P (c • a) = c • op P a := by
  unfold op
  cases h : P.prec with
  | none => simp [mulVec_smul]
  | some f => simp [(hL f h).2, mulVec_smul]

theorem op_sub (hL : LinearPrec P) (a b : Vec n) : op P (a - b) = op P a - op P b := by
  have : a - b = a + (-1 : ℝ) • b := by module
  rw [this, op_add hL, op_smul hL]
  module

theorem op_zero (hL : LinearPrec P) : op P 0 = 0 := by
  have := op_smul hL 0 (0 : Vec n)
  simpa using this

/-- What holds between the steps. -/
structure LInv (P : Problem n) (s : LSt n) : Prop where
  res : s.r 0 = P.b - P.A *ᵥ P.x0 - op P s.x
  hr : ∀ m, m < s.j → s.r (m + 1) = op P (s.r m)
  hu : ∀ m, m < s.j → s.u (m + 1) = op P (s.u m)
  last : Small P s.lastResid → s.lastResid = norm (s.r 0)
  big : s.halt = false → ¬ Small P s.lastResid

theorem LInv.init (hL : LinearPrec P) : LInv P (LSt.init P) where
  res := by simp [LSt.init, op_zero hL]
  hr := fun m h => absurd h (Nat.not_lt_zero _)
  hu := fun m h => absurd h (Nat.not_lt_zero _)
  last := fun _ => rfl
  big := by
    intro hh hs
    have : decide (Small P (resid0 P) ∨ resid0 P = 0) = false := hh
    rw [decide_eq_false_iff_not] at this
    exact this (Or.inl hs)

theorem lupdate_inv (hL : LinearPrec P) {s : LSt n} (alpha : ℝ) (h : LInv P s) (hh : s.halt = false)
    (hu : ∀ m, m < s.j + 1 → s.u (m + 1) = op P (s.u m)) : LInv P (lupdate P s alpha) := by
  have hres : s.r 0 - alpha • s.u 1 = P.b - P.A *ᵥ P.x0 - op P (s.x + alpha • s.u 0) := by
    rw [h.res, hu 0 (by omega), op_add hL, op_smul hL]
    abel
  have hr0 : ∀ m, m < s.j → s.r (m + 1) - alpha • s.u (m + 1 + 1) = op P (s.r m - alpha • s.u (m + 1)) := by
    intro m hm
    rw [op_sub hL, op_smul hL, h.hr m hm, hu (m + 1) (by omega)]
  unfold lupdate
  simp only [Nat.zero_lt_succ, if_true]
  split
  · rename_i hsm
    refine ⟨?_, ?_, ?_, ?_, ?_⟩
    · simpa using hres
    · intro m hm
      have hm : m < s.j := hm
      simp only [show m + 1 < s.j + 1 by omega, show m < s.j + 1 by omega, if_true]
      exact hr0 m hm
    · intro m hm
      have hm : m < s.j := hm
      exact hu m (by omega)
    · intro _; simp
    · intro hf; cases hf
  · refine ⟨?_, ?_, ?_, ?_, ?_⟩
    · simpa [setV] using hres
    · intro m hm
      have hm : m < s.j + 1 := hm
      by_cases he : m = s.j
      · subst he
        simp [setV]
      · have hm' : m < s.j := by omega
        simp only [setV, show ¬ m + 1 = s.j + 1 by omega, show ¬ m = s.j + 1 by omega, show m + 1 < s.j + 1 by omega, show m < s.j + 1 by omega, if_true, if_false]
        exact hr0 m hm'
    · intro m hm
      exact hu m hm
    · intro hs
      exact absurd hs (h.big hh)
    · intro _; exact h.big hh

theorem lstep_inv (hL : LinearPrec P) (o : Vec n) {s : LSt n} (h : LInv P s) (hh : s.halt = false) : LInv P (lstep P o s) := by
  have hu' : ∀ (beta : ℝ) (m : Nat), m < s.j + 1 → setV (updU s beta) (s.j + 1) (op P (updU s beta s.j)) (m + 1)
      = op P (setV (updU s beta) (s.j + 1) (op P (updU s beta s.j)) m) := by
    intro beta m hm
    by_cases he : m = s.j
    · subst he
      simp [setV]
    · have hm' : m < s.j := by omega
      simp only [setV, updU, show ¬ m + 1 = s.j + 1 by omega, show ¬ m = s.j + 1 by omega, show m + 1 < s.j + 1 by omega, show m < s.j + 1 by omega, if_true, if_false]
      rw [op_sub hL, op_smul hL, h.hr m hm', h.hu m hm']
  unfold lstep
  simp only []
  split
  · exact ⟨h.res, h.hr, h.hu, h.last, h.big⟩
  · split
    · exact ⟨h.res, h.hr, h.hu, h.last, fun hf => by cases hf⟩
    · rename_i beta _
      split
      · exact ⟨h.res, h.hr, fun m hm => hu' beta m (Nat.lt_succ_of_lt hm), h.last, h.big⟩
      · split
        · exact ⟨h.res, h.hr, fun m hm => hu' beta m (Nat.lt_succ_of_lt hm), h.last, fun hf => by cases hf⟩
        · refine lupdate_inv hL _ ⟨h.res, h.hr, fun m hm => hu' beta m (Nat.lt_succ_of_lt hm), h.last, h.big⟩ hh (fun m hm => hu' beta m hm)

theorem polyLoop_inv (hL : LinearPrec P) {s : LSt n} (gamma : Nat → ℝ) (h : LInv P s) : ∀ j, j ≤ s.j →
    (polyLoop s gamma j).2.2 = P.b - P.A *ᵥ P.x0 - op P (polyLoop s gamma j).2.1 ∧ (j = 0 → (polyLoop s gamma j).2.2 = s.r 0) := by
  intro j
  induction j with
  | zero => intro _; exact ⟨h.res, fun _ => rfl⟩
  | succ j ih =>
    intro hj
    have ih := ih (by omega)
    refine ⟨?_, fun h => by omega⟩
    simp only [polyLoop]
    have hz : op P (if j = 0 then (polyLoop s gamma j).2.2 else s.r j) = s.r (j + 1) := by
      rw [h.hr j (by omega)]
      by_cases he : j = 0
      · rw [if_pos he, ih.2 he, he]
      · rw [if_neg he]
    rw [op_add hL, op_smul hL, hz, ih.1]
    abel

theorem poly_inv (hL : LinearPrec P) (gamma : Nat → ℝ) {s : LSt n} {l : Nat} (hj : s.j = l) (h : LInv P s) : LInv P (poly P l gamma s) := by
  unfold poly
  split
  · exact ⟨h.res, h.hr, h.hu, h.last, fun hf => by cases hf⟩
  · split
    · exact ⟨h.res, h.hr, h.hu, h.last, fun hf => by cases hf⟩
    · refine ⟨?_, fun m hm => absurd hm (Nat.not_lt_zero _), fun m hm => absurd hm (Nat.not_lt_zero _), ?_, ?_⟩
      · have := (polyLoop_inv hL gamma h l (by omega)).1
        simpa [setV] using this
      · intro _; simp [setV]
      · intro hf hs
        have hf : decide _ = false := hf
        rw [decide_eq_false_iff_not] at hf
        exact hf (Or.inl hs)

theorem LReach.inv (hL : LinearPrec P) {l : Nat} {s : LSt n} (h : LReach P l s) : LInv P s := by
  induction h with
  | init => exact .init hL
  | step s o _ hh _ ih => exact lstep_inv hL o ih hh
  | poly s gamma _ _ hj ih => exact poly_inv hL gamma hj ih

theorem lresult_resid (s : LSt n) : P.b - P.A *ᵥ (lresult P s) = P.b - P.A *ᵥ P.x0 - op P s.x := by
  unfold lresult op
  cases P.prec with
  | none => simp only [mulVec_add]; abel
  | some f => simp only [mulVec_add]; abel

/-- **C46**, BiCGStab(l).  With a linear preconditioner, at every moment of the iteration, whatever random perturbations were made and whatever coefficients the least-squares
problem gave, the recursive residual is `b - A x` for the solution that would be returned. -/
theorem C46_bcgsl_residual (hL : LinearPrec P) {l : Nat} {s : LSt n} (h : LReach P l s) : s.r 0 = P.b - P.A *ᵥ (lresult P s) := by
  rw [lresult_resid]
  exact (h.inv hL).res

/-- **C46**, BiCGStab(l): if `Solve` returns `true` the residual of the returned solution is the one reported, and satisfies one of the tolerances. -/
theorem C46_bcgsl_success (hL : LinearPrec P) {l : Nat} {s : LSt n} (h : LReach P l s) (hs : Small P s.lastResid) :
    s.lastResid = norm (P.b - P.A *ᵥ (lresult P s))
    ∧ (norm (P.b - P.A *ᵥ (lresult P s)) < P.atol ∨ norm (P.b - P.A *ᵥ (lresult P s)) < P.rtol * norm (P.b - P.A *ᵥ P.x0)) := by
  have h1 := (h.inv hL).last hs
  rw [C46_bcgsl_residual hL h] at h1
  refine ⟨h1, ?_⟩
  rw [h1] at hs
  exact hs

end BCGSL

/-! ### A breakdown of BiCGStab(l) -/

/-- Two equations with large coefficients. -/
noncomputable def large : Problem 2 :=
  { A := !![10 ^ 60, 2 * 10 ^ 60; 0, 10 ^ 60], b := ![0, 1], x0 := 0, prec := none, atol := 1 / 2, rtol := 1 / 2, divtol := 10, maxits := 10 }

theorem norm_two (a b : ℝ) : norm (![a, b] : Vec 2) = Real.sqrt (a * a + b * b) := by
  simp [norm, dot]

theorem large_r : large.b - large.A *ᵥ large.x0 = ![0, 1] := by
  simp [large]

theorem large_resid0 : resid0 large = 1 := by
  rw [resid0, large_r, norm_two]
  simp

theorem large_start : ¬ (Small large (resid0 large) ∨ resid0 large = 0) := by
  show ¬ ((resid0 large < 1 / 2 ∨ resid0 large < 1 / 2 * resid0 large) ∨ resid0 large = 0)
  rw [large_resid0]
  norm_num

theorem large_op (a b : ℝ) : op large ![a, b] = ![10 ^ 60 * a + 2 * 10 ^ 60 * b, 10 ^ 60 * b] := by
  ext k
  fin_cases k <;> simp [op, large, Matrix.mulVec, dotProduct, Fin.sum_univ_two]

theorem lupdate_not {n : Nat} {P : Problem n} {s : LSt n} (alpha : ℝ) (hj : s.j = 0) (h : ¬ Small P (norm (s.r 0 - alpha • s.u 1))) :
    (lupdate P s alpha).halt = s.halt ∧ (lupdate P s alpha).j = 1 ∧ (lupdate P s alpha).lastResid = s.lastResid ∧ (lupdate P s alpha).r 0 = s.r 0 - alpha • s.u 1
    ∧ (lupdate P s alpha).r 1 = op P (s.r 0 - alpha • s.u 1) ∧ (lupdate P s alpha).x = s.x + alpha • s.u 0 := by
  unfold lupdate
  simp only [hj, Nat.zero_add, Nat.zero_lt_one, if_true, h, if_false]
  simp [setV]

theorem large_step : let s := lstep large 0 (LSt.init large)
    s.halt = false ∧ s.j = 1 ∧ s.lastResid = 1 ∧ s.r 0 = ![-2, 0] ∧ s.r 1 = ![-2 * 10 ^ 60, 0] ∧ s.x = ![0, 1 / 10 ^ 60] := by
  intro s
  have hi : LSt.init large = { x := 0, rt := ![0, 1], u := fun _ => 0, r := fun k => if k = 0 then ![0, 1] else 0, rho0 := -1, alpha := 0, omega := 1, lastResid := 1, j := 0, its := 0, halt := false } := by
    have h2 := large_start
    rw [large_resid0] at h2
    unfold LSt.init
    simp only [large_r, large_resid0]
    congr 1
    · simp
    · exact decide_eq_false h2
  have q1 : quot (0 * 1 : ℝ) (-1) = some 0 := by
    unfold quot huge
    rw [if_neg (by norm_num), if_neg (by norm_num)]
    norm_num
  have q2 : quot (1 : ℝ) (10 ^ 60) = some (1 / 10 ^ 60) := by
    unfold quot huge
    rw [if_neg (by norm_num), if_neg (by rw [abs_of_pos (by norm_num)]; norm_num)]
  have hs : s = lstep large 0 (LSt.init large) := rfl
  rw [hi] at hs
  unfold lstep at hs
  have d1 : dot (![0, 1] : Vec 2) ![0, 1] = 1 := by simp [dot]
  simp only [if_true, d1, abs_one] at hs
  rw [if_neg (by unfold tiny; norm_num), q1] at hs
  simp only [updU, setV, Nat.lt_irrefl, if_true, zero_smul, sub_zero, Nat.zero_add, Nat.lt_one_iff] at hs
  have o1 : op large ![0, 1] = ![2 * 10 ^ 60, 10 ^ 60] := by rw [large_op]; norm_num
  have d2 : dot (![2 * 10 ^ 60, 10 ^ 60] : Vec 2) ![0, 1] = 10 ^ 60 := by simp [dot]
  simp only [o1, d2] at hs
  rw [if_neg (by unfold tiny; rw [abs_of_pos (by norm_num)]; norm_num), q2] at hs
  have hr : (![0, 1] : Vec 2) - (1 / 10 ^ 60 : ℝ) • ![2 * 10 ^ 60, 10 ^ 60] = ![-2, 0] := by
    ext k
    fin_cases k
    · simp; norm_num
    · simp
  have hx : (0 : Vec 2) + (1 / 10 ^ 60 : ℝ) • ![0, 1] = ![0, 1 / 10 ^ 60] := by simp
  have hn : ¬ Small large (norm (![-2, 0] : Vec 2)) := by
    have : norm (![-2, 0] : Vec 2) = 2 := by
      rw [norm_two]
      norm_num
      rw [show (4 : ℝ) = 2 ^ 2 by norm_num]
      exact Real.sqrt_sq (by norm_num)
    rw [this]
    show ¬ ((2 : ℝ) < 1 / 2 ∨ (2 : ℝ) < 1 / 2 * resid0 large)
    rw [large_resid0]
    norm_num
  have o2 : op large ![-2, 0] = ![-2 * 10 ^ 60, 0] := by rw [large_op]; norm_num
  obtain ⟨S, hs, e1, e2, e3, e4, e5, e6, e7⟩ : ∃ S : LSt 2, s = lupdate large S (1 / 10 ^ 60) ∧ S.j = 0 ∧ S.halt = false ∧ S.lastResid = 1 ∧ S.r 0 = ![0, 1]
      ∧ S.u 1 = ![2 * 10 ^ 60, 10 ^ 60] ∧ S.u 0 = (![0, 1] : Vec 2) - (0 : ℝ) • (0 : Vec 2) ∧ S.x = 0 := ⟨_, hs, rfl, rfl, rfl, rfl, rfl, rfl, rfl⟩
  obtain ⟨g1, g2, g3, g4, g5, g6⟩ := lupdate_not (P := large) (s := S) (1 / 10 ^ 60) e1 (by rw [e4, e5, hr]; exact hn)
  rw [hs]
  refine ⟨g1.trans e2, g2, g3.trans e3, ?_, ?_, ?_⟩
  · rw [g4, e4, e5, hr]
  · rw [g5, e4, e5, hr, o2]
  · rw [g6, e6, e7, ← hx]
    simp

/-- **C46 fails** for BiCGStab(l) that stops at a breakdown: the solution was changed by the steps before the breakdown, and the reported residual is the one before these steps.
Here `Residual()` is `1` and the residual of the returned solution is `2`.  (`Solve` returns `false`.) -/
theorem C46_bcgsl_stale_fails : ∃ s, LReach large 1 s ∧ s.halt = true ∧ s.lastResid = 1 ∧ norm (large.b - large.A *ᵥ (lresult large s)) = 2 := by
  obtain ⟨h1, h2, h3, h4, h5, h6⟩ := large_step
  have hL : LinearPrec large := by intro f h; cases h
  have hr : LReach large 1 (poly large 1 (fun _ => 0) (lstep large 0 (LSt.init large))) :=
    .poly _ _ (.step _ _ .init (decide_eq_false large_start) Nat.zero_lt_one) h1 h2
  have hd : |dot ((lstep large 0 (LSt.init large)).r 1) ((lstep large 0 (LSt.init large)).r 1)| > huge := by
    rw [h5]
    simp only [dot, huge]
    norm_num
  have hp : poly large 1 (fun _ => 0) (lstep large 0 (LSt.init large)) = { lstep large 0 (LSt.init large) with halt := true } := by
    unfold poly
    rw [if_pos (Or.inl ⟨1, 1, le_refl _, le_refl _, le_refl _, hd⟩)]
  refine ⟨_, hr, ?_, ?_, ?_⟩
  · rw [hp]
  · rw [hp]; exact h3
  · rw [← C46_bcgsl_residual hL hr, hp]
    show norm ((lstep large 0 (LSt.init large)).r 0) = 2
    rw [h4, norm_two]
    norm_num
    rw [show (4 : ℝ) = 2 ^ 2 by norm_num]
    exact Real.sqrt_sq (by norm_num)

/-- Systems with a preconditioner: the hypotheses of the theorems hold, and the iteration of BCGS for `x = 1` with the identity makes a step. -/
example : let P := { single with prec := some id }
    LinearPrec P ∧ Reach P (iter P 0 (St.init P)) ∧ LReach P 2 (lstep P 0 (LSt.init P)) := by
  intro P
  have hs : ¬ (Small P (resid0 P) ∨ resid0 P = 0) := single_start
  refine ⟨fun f hf => ?_, .step _ _ .init (decide_eq_false hs), .step _ _ .init (decide_eq_false hs) (Nat.zero_lt_succ _)⟩
  obtain rfl : id = f := Option.some.inj hf
  exact ⟨fun _ _ => rfl, fun _ _ => rfl⟩

end Verif.Krylov
