import Verif.Autodiff.Spec
import Verif.Sparse.MergerLemmas
import Mathlib.Analysis.SpecialFunctions.ExpDeriv
import Mathlib.Analysis.SpecialFunctions.Log.Deriv
import Mathlib.Analysis.SpecialFunctions.Trigonometric.Deriv
import Mathlib.Analysis.SpecialFunctions.Sqrt
import Mathlib.Analysis.SpecialFunctions.Pow.Deriv
import Mathlib.Analysis.SpecialFunctions.Complex.LogDeriv
import Mathlib.Analysis.Calculus.Deriv.Inv
import Mathlib.Analysis.Calculus.Deriv.Abs

/-!
# Lemmas on automatic differentiation
-/

namespace Verif.Autodiff

open Verif.Sparse

/-! ## Rows as linear functionals -/

@[simp] theorem dot_nil (v : Nat → ℝ) : dot [] v = 0 := rfl

@[simp] theorem dot_cons (e : Nat × ℝ) (r : Row ℝ) (v : Nat → ℝ) : dot (e :: r) v = e.2 * v e.1 + dot r v := by
  simp [dot]

theorem dot_append (r s : Row ℝ) (v : Nat → ℝ) : dot (r ++ s) v = dot r v + dot s v := by
  simp [dot]

theorem dot_scale (r : Row ℝ) (m : ℝ) (v : Nat → ℝ) : dot (r.map fun e => (e.1, e.2 * m)) v = m * dot r v := by
  induction r with
  | nil => simp
  | cons e r ih => rw [List.map_cons, dot_cons, dot_cons, ih]; ring

/-- A row is determined as a functional by its column values. -/
theorem dot_congr (r s : Row ℝ) (h : ∀ c, colVal r c = colVal s c) (v : Nat → ℝ) : dot r v = dot s v := by
  have hr := sum_entries v r ((r ++ s).map (·.1)).toFinset (fun e he => by
    rw [List.mem_toFinset]; exact List.mem_map.2 ⟨e, List.mem_append_left _ he, rfl⟩)
  have hs := sum_entries v s ((r ++ s).map (·.1)).toFinset (fun e he => by
    rw [List.mem_toFinset]; exact List.mem_map.2 ⟨e, List.mem_append_right _ he, rfl⟩)
  have hd : ∀ q : Row ℝ, dot q v = (q.map fun e => v e.1 * e.2).sum := by
    intro q; simp only [dot, mul_comm]
  rw [hd, hd, hr, hs]
  exact Finset.sum_congr rfl fun c _ => by rw [h]

/-- All contributions as one row. -/
def flat : List Contr → Row ℝ
  | [] => []
  | .inc i m :: cs => (i, m) :: flat cs
  | .row m r :: cs => (r.map fun e => (e.1, e.2 * m)) ++ flat cs

theorem flat_append (a b : List Contr) : flat (a ++ b) = flat a ++ flat b := by
  induction a with
  | nil => rfl
  | cons c a ih =>
    cases c with
    | inc i m => simp [flat, ih]
    | row m r => simp [flat, ih]

/-! ## Differentiation -/

/-- The hypotheses on the state. -/
structure Ctx (s s1 : Store) (G : Nat → (Nat → ℝ) → ℝ) (x : Nat → ℝ) : Prop where
  val : ∀ k, (s k).value = G k x
  grad : ∀ k, HasGradient (G k) x (s k).entries
  ent : ∀ k, (s1 k).entries = (s k).entries

theorem value_of (s : Store) (G : Nat → (Nat → ℝ) → ℝ) (x : Nat → ℝ) (h : ∀ k, (s k).value = G k x) (e : Expr)
    (hr : Regular G x e) : value s e = den G e x := by
  induction e with
  | const c => rfl
  | var v i =>
    cases i with
    | none => rfl
    | some i => exact hr
  | mvar k => exact h k
  | constMul e c ih => simp only [value, den, ih hr]; ring
  | variation e c ih => simp only [value, den, ih hr.2]
  | constDiv e c ih => simp only [value, den, ih hr.2]; ring
  | constAdd e c ih => simp only [value, den, ih hr]
  | constSub e c ih => simp only [value, den, ih hr]
  | recip e c ih => simp only [value, den, ih hr.2]; ring
  | neg e ih => simp only [value, den, ih hr]
  | pos e ih => simp only [value, den, ih hr]
  | abs e ih => simp only [value, den, ih hr.2]
  | exp e ih => simp only [value, den, ih hr]
  | log e ih => simp only [value, den, ih hr.2]
  | sin e ih => simp only [value, den, ih hr]
  | cos e ih => simp only [value, den, ih hr]
  | sqrt e ih => simp only [value, den, ih hr.2]
  | softAbs e tol ih => simp only [value, den, ih hr.2, pow_two]
  | softSign e tol ih => simp only [value, den, ih hr.2, pow_two]
  | softMax l r tol ihl ihr => simp only [value, den, ihl hr.2.1, ihr hr.2.2, pow_two]; ring
  | softMin l r tol ihl ihr => simp only [value, den, ihl hr.2.1, ihr hr.2.2, pow_two]; ring
  | mul l r ihl ihr => simp only [value, den, ihl hr.1, ihr hr.2]
  | div l r ihl ihr =>
    have := hr.1
    simp only [value, den, ihl hr.2.1, ihr hr.2.2]
    rw [if_pos this]; ring
  | add l r ihl ihr => simp only [value, den, ihl hr.1, ihr hr.2]
  | sub l r ihl ihr => simp only [value, den, ihl hr.1, ihr hr.2]
  | pow l r ihl ihr => simp only [value, den, ihl hr.2.1, ihr hr.2.2]
  | atan2 l r ihl ihr => simp only [value, den, ihl hr.2.1, ihr hr.2.2]
  | powConst e c ih => simp only [value, den, ih hr.2]
  | constPow c e ih => simp only [value, den, ih hr.2]
  | cond c l r ihc ihl ihr =>
    simp only [value, den, ihc hr.2.1]
    by_cases hc : 0 ≤ den G c x
    · simp only [ge_iff_le, hc, ↓reduceIte, ihl (hr.2.2.1 hc)]
    · simp only [ge_iff_le, hc, ↓reduceIte, ihr (hr.2.2.2 (not_le.1 hc))]
  | branch b l r ihl ihr =>
    cases b with
    | true => simp only [value, den, ↓reduceIte]; exact ihl hr
    | false => simp only [value, den, Bool.false_eq_true, ↓reduceIte]; exact ihr hr
  | func e f f' ih => simp only [value, den, ih hr.2]

theorem value_eq (s s1 : Store) (G : Nat → (Nat → ℝ) → ℝ) (x : Nat → ℝ) (h : Ctx s s1 G x) (e : Expr)
    (hr : Regular G x e) : value s e = den G e x := value_of s G x h.val e hr

theorem sq_add_pos (a t : ℝ) (h : a ≠ 0 ∨ t ≠ 0) : 0 < a ^ 2 + t ^ 2 := by
  rcases h with h | h
  · have := pow_pos (abs_pos.2 h) 2
    rw [sq_abs] at this
    nlinarith [sq_nonneg t]
  · have := pow_pos (abs_pos.2 h) 2
    rw [sq_abs] at this
    nlinarith [sq_nonneg a]

/-- Derivative of the root of a sum of squares. -/
theorem hasDerivAt_root (f : ℝ → ℝ) (f' t0 tol : ℝ) (hf : HasDerivAt f f' t0) (h : f t0 ≠ 0 ∨ tol ≠ 0) :
    HasDerivAt (fun t => Real.sqrt (f t ^ 2 + tol ^ 2)) (f t0 / Real.sqrt (f t0 ^ 2 + tol ^ 2) * f') t0 := by
  have h1 : HasDerivAt (fun t => f t ^ 2 + tol ^ 2) (2 * f t0 * f') t0 := by
    exact ((hf.pow 2).add_const (tol ^ 2)).congr_deriv (by norm_num)
  have h2 := h1.sqrt (ne_of_gt (sq_add_pos _ _ h))
  convert h2 using 1
  ring

theorem hasDerivAt_atan2 (f g : ℝ → ℝ) (f' g' t0 : ℝ) (hf : HasDerivAt f f' t0) (hg : HasDerivAt g g' t0)
    (h : 0 < g t0 ∨ f t0 ≠ 0) :
    HasDerivAt (fun t => Complex.arg ⟨g t, f t⟩)
      (g t0 / (g t0 * g t0 + f t0 * f t0) * f' + -f t0 / (g t0 * g t0 + f t0 * f t0) * g') t0 := by
  have hz : HasDerivAt (fun t => (⟨g t, f t⟩ : ℂ)) (⟨g', f'⟩ : ℂ) t0 := by
    have e1 : (fun t => (⟨g t, f t⟩ : ℂ)) = fun t => (g t : ℂ) + (f t : ℂ) * Complex.I := by
      funext t; exact (Complex.mk_eq_add_mul_I _ _)
    rw [e1, Complex.mk_eq_add_mul_I]
    exact hg.ofReal_comp.add (hf.ofReal_comp.mul_const _)
  have hs : (⟨g t0, f t0⟩ : ℂ) ∈ Complex.slitPlane := h
  have hl := hz.clog_real hs
  have him := Complex.imCLM.hasFDerivAt.comp_hasDerivAt t0 hl
  have hd : g t0 * g t0 + f t0 * f t0 ≠ 0 := by
    rcases h with h | h
    · nlinarith [mul_self_nonneg (f t0), mul_pos h h]
    · have := mul_self_pos.2 h
      nlinarith [mul_self_nonneg (g t0)]
  have hfun : (fun t => Complex.arg ⟨g t, f t⟩) =
      Complex.imCLM ∘ fun t => Complex.log ⟨g t, f t⟩ := by
    funext t; exact (Complex.log_im _).symm
  rw [hfun]
  refine him.congr_deriv ?_
  simp only [Complex.imCLM_apply, Complex.div_im, Complex.normSq_apply]
  field_simp
  ring

/-- The heart of automatic differentiation. -/
theorem contrib_spec (s s1 : Store) (G : Nat → (Nat → ℝ) → ℝ) (x : Nat → ℝ) (h : Ctx s s1 G x) (e : Expr)
    (hr : Regular G x e) (hm : ∀ k, MulOperand k e → (s1 k).value = (s k).value)
    (γ : ℝ → Nat → ℝ) (v : Nat → ℝ) (t0 : ℝ) (h0 : γ t0 = x)
    (hγ : ∀ i, HasDerivAt (fun t => γ t i) (v i) t0) :
    ∃ D, HasDerivAt (fun t => den G e (γ t)) D t0 ∧ ∀ m, dot (flat (contrib s s1 m e)) v = m * D := by
  induction e with
  | const c => exact ⟨0, hasDerivAt_const _ _, fun m => by simp [contrib, flat]⟩
  | var a i =>
    cases i with
    | none => exact ⟨0, hasDerivAt_const _ _, fun m => by simp [contrib, flat]⟩
    | some i =>
      refine ⟨v i, hγ i, fun m => ?_⟩
      by_cases hm : m = 0 <;> simp [contrib, flat, hm]
  | mvar k =>
    refine ⟨_, h.grad k γ v t0 h0 hγ, fun m => ?_⟩
    simp only [contrib, flat, h.ent, List.append_nil, dot_scale]
  | constMul e c ih =>
    obtain ⟨D, hD, hc⟩ := ih hr hm
    exact ⟨_, hD.const_mul c, fun m => by simp only [contrib, hc]; ring⟩
  | variation e c ih =>
    obtain ⟨D, hD, hc⟩ := ih hr.2 hm
    exact ⟨_, hD, fun m => by simp only [contrib, hc, hr.1]; ring⟩
  | constDiv e c ih =>
    obtain ⟨D, hD, hc⟩ := ih hr.2 hm
    exact ⟨_, hD.div_const c, fun m => by simp only [contrib, hc]; ring⟩
  | constAdd e c ih =>
    obtain ⟨D, hD, hc⟩ := ih hr hm
    exact ⟨_, hD.add_const c, fun m => by simp only [contrib, hc]⟩
  | constSub e c ih =>
    obtain ⟨D, hD, hc⟩ := ih hr hm
    exact ⟨_, hD.const_sub c, fun m => by simp only [contrib, hc]; ring⟩
  | recip e c ih =>
    obtain ⟨D, hD, hc⟩ := ih hr.2 hm
    have hv := value_eq s s1 G x h e hr.2
    have hne : den G e (γ t0) ≠ 0 := by rw [h0]; exact hr.1
    refine ⟨_, (hasDerivAt_const t0 c).div hD hne, fun m => ?_⟩
    simp only [contrib, hc, hv, h0]
    have := hr.1
    field_simp
    ring
  | neg e ih =>
    obtain ⟨D, hD, hc⟩ := ih hr hm
    exact ⟨_, hD.neg, fun m => by simp only [contrib, hc]; ring⟩
  | pos e ih =>
    obtain ⟨D, hD, hc⟩ := ih hr hm
    exact ⟨_, hD, fun m => by simp only [contrib, hc]⟩
  | abs e ih =>
    obtain ⟨D, hD, hc⟩ := ih hr.2 hm
    have hv := value_eq s s1 G x h e hr.2
    have hne : den G e (γ t0) ≠ 0 := by rw [h0]; exact hr.1
    have hab : |den G e x| ≠ 0 := abs_ne_zero.2 hr.1
    rcases lt_or_gt_of_ne hne with hlt | hgt
    · refine ⟨_, (hasDerivAt_abs_neg hlt).comp t0 hD, fun m => ?_⟩
      rw [h0] at hlt
      simp only [contrib, hc, hv, hab, hlt, ↓reduceIte]; ring
    · refine ⟨_, (hasDerivAt_abs_pos hgt).comp t0 hD, fun m => ?_⟩
      rw [h0] at hgt
      simp only [contrib, hc, hv, hab, not_lt.2 (le_of_lt hgt), ↓reduceIte]; ring
  | exp e ih =>
    obtain ⟨D, hD, hc⟩ := ih hr hm
    refine ⟨_, hD.exp, fun m => ?_⟩
    simp only [contrib, hc, value_eq s s1 G x h e hr, h0]; ring
  | log e ih =>
    obtain ⟨D, hD, hc⟩ := ih hr.2 hm
    have hne : den G e (γ t0) ≠ 0 := by rw [h0]; exact ne_of_gt hr.1
    refine ⟨_, hD.log hne, fun m => ?_⟩
    simp only [contrib, hc, value_eq s s1 G x h e hr.2, h0]; ring
  | sin e ih =>
    obtain ⟨D, hD, hc⟩ := ih hr hm
    refine ⟨_, hD.sin, fun m => ?_⟩
    simp only [contrib, hc, value_eq s s1 G x h e hr, h0]; ring
  | cos e ih =>
    obtain ⟨D, hD, hc⟩ := ih hr hm
    refine ⟨_, hD.cos, fun m => ?_⟩
    simp only [contrib, hc, value_eq s s1 G x h e hr, h0]; ring
  | sqrt e ih =>
    obtain ⟨D, hD, hc⟩ := ih hr.2 hm
    have hne : den G e (γ t0) ≠ 0 := by rw [h0]; exact ne_of_gt hr.1
    refine ⟨_, hD.sqrt hne, fun m => ?_⟩
    have hs : Real.sqrt (den G e x) ≠ 0 := ne_of_gt (Real.sqrt_pos.2 hr.1)
    simp only [contrib, value_eq s s1 G x h e hr.2, h0]
    rw [if_pos hs, hc]
    ring
  | softAbs e tol ih =>
    obtain ⟨D, hD, hc⟩ := ih hr.2 hm
    refine ⟨_, hasDerivAt_root _ _ _ tol hD (by rw [h0]; exact hr.1), fun m => ?_⟩
    simp only [contrib, hc, value_eq s s1 G x h e hr.2, h0, pow_two]; ring
  | softSign e tol ih =>
    obtain ⟨D, hD, hc⟩ := ih hr.2 hm
    have hp := sq_add_pos _ _ hr.1
    have hs : Real.sqrt (den G e x ^ 2 + tol ^ 2) ≠ 0 := ne_of_gt (Real.sqrt_pos.2 hp)
    refine ⟨_, hD.div (hasDerivAt_root _ _ _ tol hD (by rw [h0]; exact hr.1)) (by rw [h0]; exact hs), fun m => ?_⟩
    simp only [contrib, hc, value_eq s s1 G x h e hr.2, h0]
    have hq : Real.sqrt (den G e x ^ 2 + tol ^ 2) ^ 2 = den G e x ^ 2 + tol ^ 2 := Real.sq_sqrt (le_of_lt hp)
    have e1 : den G e x * den G e x + tol * tol = den G e x ^ 2 + tol ^ 2 := by ring
    rw [e1]
    generalize Real.sqrt (den G e x ^ 2 + tol ^ 2) = q at hs hq ⊢
    rw [← hq]
    field_simp
  | softMax l r tol ihl ihr =>
    obtain ⟨D, hD, hc⟩ := ihl hr.2.1 (fun k hk => hm k (Or.inl hk))
    obtain ⟨E, hE, hd⟩ := ihr hr.2.2 (fun k hk => hm k (Or.inr hk))
    have hx : (fun t => den G l (γ t) - den G r (γ t)) t0 ≠ 0 ∨ tol ≠ 0 := by
      simp only [h0]; exact hr.1.imp sub_ne_zero.2 id
    have hroot := hasDerivAt_root _ _ _ tol (hD.sub hE) hx
    refine ⟨_, ((hD.add hE).add hroot).div_const 2, fun m => ?_⟩
    simp only [contrib, flat_append, dot_append, hc, hd, value_eq s s1 G x h l hr.2.1,
      value_eq s s1 G x h r hr.2.2, Pi.sub_apply, h0, pow_two]
    ring
  | softMin l r tol ihl ihr =>
    obtain ⟨D, hD, hc⟩ := ihl hr.2.1 (fun k hk => hm k (Or.inl hk))
    obtain ⟨E, hE, hd⟩ := ihr hr.2.2 (fun k hk => hm k (Or.inr hk))
    have hx : (fun t => den G l (γ t) - den G r (γ t)) t0 ≠ 0 ∨ tol ≠ 0 := by
      simp only [h0]; exact hr.1.imp sub_ne_zero.2 id
    have hroot := hasDerivAt_root _ _ _ tol (hD.sub hE) hx
    refine ⟨_, ((hD.add hE).sub hroot).div_const 2, fun m => ?_⟩
    simp only [contrib, flat_append, dot_append, hc, hd, value_eq s s1 G x h l hr.2.1,
      value_eq s s1 G x h r hr.2.2, Pi.sub_apply, h0, pow_two]
    ring
  | mul l r ihl ihr =>
    obtain ⟨D, hD, hc⟩ := ihl hr.1 (fun k hk => hm k (Or.inr (Or.inr (Or.inl hk))))
    obtain ⟨E, hE, hd⟩ := ihr hr.2 (fun k hk => hm k (Or.inr (Or.inr (Or.inr hk))))
    have hl : ∀ e, (∀ k, e = .mvar k → (s1 k).value = (s k).value) → liveValue s s1 e = value s e := by
      intro e he
      cases e <;> first | rfl | exact he _ rfl
    refine ⟨_, hD.mul hE, fun m => ?_⟩
    simp only [contrib, flat_append, dot_append, hc, hd]
    rw [hl l (fun k hk => hm k (Or.inl hk)), hl r (fun k hk => hm k (Or.inr (Or.inl hk))),
      value_eq s s1 G x h l hr.1, value_eq s s1 G x h r hr.2, h0]
    ring
  | div l r ihl ihr =>
    obtain ⟨D, hD, hc⟩ := ihl hr.2.1 (fun k hk => hm k (Or.inl hk))
    obtain ⟨E, hE, hd⟩ := ihr hr.2.2 (fun k hk => hm k (Or.inr hk))
    have hne : den G r x ≠ 0 := hr.1
    refine ⟨_, hD.div hE (by rw [h0]; exact hne), fun m => ?_⟩
    simp only [contrib, flat_append, dot_append, hc, hd, value_eq s s1 G x h l hr.2.1,
      value_eq s s1 G x h r hr.2.2, h0]
    rw [if_pos hne, if_pos hne]
    field_simp
    ring
  | add l r ihl ihr =>
    obtain ⟨D, hD, hc⟩ := ihl hr.1 (fun k hk => hm k (Or.inl hk))
    obtain ⟨E, hE, hd⟩ := ihr hr.2 (fun k hk => hm k (Or.inr hk))
    refine ⟨_, hD.add hE, fun m => ?_⟩
    simp only [contrib, flat_append, dot_append, hc, hd]; ring
  | sub l r ihl ihr =>
    obtain ⟨D, hD, hc⟩ := ihl hr.1 (fun k hk => hm k (Or.inl hk))
    obtain ⟨E, hE, hd⟩ := ihr hr.2 (fun k hk => hm k (Or.inr hk))
    refine ⟨_, hD.sub hE, fun m => ?_⟩
    simp only [contrib, flat_append, dot_append, hc, hd]; ring
  | pow l r ihl ihr =>
    obtain ⟨D, hD, hc⟩ := ihl hr.2.1 (fun k hk => hm k (Or.inl hk))
    obtain ⟨E, hE, hd⟩ := ihr hr.2.2 (fun k hk => hm k (Or.inr hk))
    have hp : 0 < den G l x := hr.1
    have hne := ne_of_gt hp
    refine ⟨_, hD.rpow hE (by rw [h0]; exact hp), fun m => ?_⟩
    simp only [contrib, flat_append, dot_append, hc, hd, value_eq s s1 G x h l hr.2.1,
      value_eq s s1 G x h r hr.2.2, h0]
    rw [if_pos hne, if_pos hne, Real.rpow_sub_one hne]
    ring
  | atan2 l r ihl ihr =>
    obtain ⟨D, hD, hc⟩ := ihl hr.2.1 (fun k hk => hm k (Or.inl hk))
    obtain ⟨E, hE, hd⟩ := ihr hr.2.2 (fun k hk => hm k (Or.inr hk))
    refine ⟨_, hasDerivAt_atan2 _ _ _ _ _ hD hE (by rw [h0]; exact hr.1), fun m => ?_⟩
    simp only [contrib, flat_append, dot_append, hc, hd, value_eq s s1 G x h l hr.2.1,
      value_eq s s1 G x h r hr.2.2, h0]
    ring
  | powConst e c ih =>
    obtain ⟨D, hD, hc⟩ := ih hr.2 hm
    by_cases hc0 : c = 0
    · subst hc0
      refine ⟨0, ?_, fun m => ?_⟩
      · simp only [den, Real.rpow_zero]; exact hasDerivAt_const _ _
      · simp only [contrib, hc]; simp
    have hx : den G e (γ t0) ≠ 0 ∨ 1 ≤ c := by
      rw [h0]
      rcases hr.1 with h1 | h1 | ⟨n, h1, rfl⟩
      · exact .inl (ne_of_gt h1)
      · exact .inl h1.1
      · have hn0 : n ≠ 0 := fun hh => hc0 (by rw [hh]; norm_num)
        right; exact_mod_cast (by omega : 1 ≤ n)
    refine ⟨_, hD.rpow_const hx, fun m => ?_⟩
    simp only [contrib, hc, value_eq s s1 G x h e hr.2, h0]
    by_cases hz : den G e x = 0
    · rcases hr.1 with h1 | h1 | ⟨n, h1, rfl⟩
      · exact absurd hz (ne_of_gt h1)
      · exact absurd hz h1.1
      · rw [if_neg (by simpa using hz), hz, Real.zero_rpow]
        · ring
        · have hn0 : n ≠ 0 := fun hh => hc0 (by rw [hh]; norm_num)
          have : (2 : ℝ) ≤ n := by exact_mod_cast (by omega : 2 ≤ n)
          linarith
    · rw [if_pos hz, Real.rpow_sub_one hz]; ring
  | constPow c e ih =>
    obtain ⟨D, hD, hc⟩ := ih hr.2 hm
    refine ⟨_, hD.const_rpow hr.1, fun m => ?_⟩
    simp only [contrib, hc, value_eq s s1 G x h e hr.2, h0]
    rw [if_pos (ne_of_gt hr.1)]; ring
  | cond c l r ihc ihl ihr =>
    obtain ⟨C, hC, _⟩ := ihc hr.2.1 (fun k hk => hm k (Or.inl hk))
    have hne : den G c x ≠ 0 := hr.1
    rcases lt_or_gt_of_ne hne with hlt | hgt
    · obtain ⟨E, hE, hd⟩ := ihr (hr.2.2.2 hlt) (fun k hk => hm k (Or.inr (Or.inr hk)))
      have hev : ∀ᶠ t in nhds t0, den G c (γ t) < 0 :=
        hC.continuousAt.eventually_lt continuousAt_const (by rw [h0]; exact hlt)
      refine ⟨E, ?_, fun m => ?_⟩
      · refine hE.congr_of_eventuallyEq ?_
        filter_upwards [hev] with t ht
        simp only [den, ge_iff_le, not_le.2 ht, ↓reduceIte]
      · simp only [contrib, value_eq s s1 G x h c hr.2.1, ge_iff_le, not_le.2 hlt, ↓reduceIte, hd]
    · obtain ⟨D, hD, hc⟩ := ihl (hr.2.2.1 (le_of_lt hgt)) (fun k hk => hm k (Or.inr (Or.inl hk)))
      have hev : ∀ᶠ t in nhds t0, 0 < den G c (γ t) :=
        continuousAt_const.eventually_lt hC.continuousAt (by rw [h0]; exact hgt)
      refine ⟨D, ?_, fun m => ?_⟩
      · refine hD.congr_of_eventuallyEq ?_
        filter_upwards [hev] with t ht
        simp only [den, ge_iff_le, le_of_lt ht, ↓reduceIte]
      · simp only [contrib, value_eq s s1 G x h c hr.2.1, ge_iff_le, le_of_lt hgt, ↓reduceIte, hc]
  | branch b l r ihl ihr =>
    cases b with
    | true =>
      obtain ⟨D, hD, hc⟩ := ihl hr (fun k hk => hm k (Or.inl hk))
      exact ⟨D, hD, fun m => by simp only [contrib, ↓reduceIte, hc]⟩
    | false =>
      obtain ⟨D, hD, hc⟩ := ihr hr (fun k hk => hm k (Or.inr hk))
      exact ⟨D, hD, fun m => by simp only [contrib, Bool.false_eq_true, ↓reduceIte, hc]⟩
  | func e f f' ih =>
    obtain ⟨D, hD, hc⟩ := ih hr.2 hm
    have hf : HasDerivAt f (f' (den G e x)) (den G e (γ t0)) := by rw [h0]; exact hr.1
    refine ⟨_, hf.comp t0 hD, fun m => ?_⟩
    simp only [contrib, hc, value_eq s s1 G x h e hr.2]; ring

end Verif.Autodiff
