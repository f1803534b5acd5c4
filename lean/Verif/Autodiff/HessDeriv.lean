import Verif.Autodiff.HessLemmas
import Mathlib.Analysis.SpecialFunctions.Trigonometric.Deriv
import Mathlib.Analysis.SpecialFunctions.Log.Deriv
import Mathlib.Analysis.SpecialFunctions.Sqrt

/-!
# Lemmas: second derivatives of expressions
-/

namespace Verif.Autodiff

open Verif.Sparse Filter Topology

/-- The hypotheses on the states at construction and at the call. -/
structure HCtx (s s1 : HStore) (G : Nat → (Nat → ℝ) → ℝ) (x : Nat → ℝ) : Prop where
  rep : Represents2 s G x
  ent : ∀ k, (s1 k).entries = (s k).entries
  hes : ∀ k, (s1 k).hess = (s k).hess

/-- Behaviour of a function along a line up to second order. -/
def Along (g : ℝ → ℝ) (A B : ℝ) : Prop :=
  ∃ φ : ℝ → ℝ, (∀ᶠ t in 𝓝 0, HasDerivAt g (φ t) t) ∧ φ 0 = A ∧ HasDerivAt φ B 0

theorem along_congr {g h : ℝ → ℝ} {A B : ℝ} (hg : Along g A B) (he : ∀ᶠ t in 𝓝 0, h t = g t) : Along h A B := by
  obtain ⟨φ, h1, h2, h3⟩ := hg
  refine ⟨φ, ?_, h2, h3⟩
  have := he.eventually_nhds
  filter_upwards [h1, this] with t ht hht
  exact ht.congr_of_eventuallyEq hht

theorem along_cont {g : ℝ → ℝ} {A B : ℝ} (hg : Along g A B) : ContinuousAt g 0 := by
  obtain ⟨φ, h1, _, _⟩ := hg
  exact h1.self_of_nhds.continuousAt

theorem along_const (c : ℝ) : Along (fun _ => c) 0 0 :=
  ⟨fun _ => 0, .of_forall fun t => hasDerivAt_const t c, rfl, hasDerivAt_const 0 0⟩

theorem along_line (x v : Nat → ℝ) (i : Nat) : Along (fun t => line x v t i) (v i) 0 := by
  refine ⟨fun _ => v i, .of_forall fun t => ?_, rfl, hasDerivAt_const 0 _⟩
  unfold line
  exact (((hasDerivAt_id t).mul_const (v i)).const_add (x i)).congr_deriv (by ring)

theorem along_add {g h : ℝ → ℝ} {A B C D : ℝ} (hg : Along g A B) (hh : Along h C D) (p q : ℝ) :
    Along (fun t => p * g t + q * h t) (p * A + q * C) (p * B + q * D) := by
  obtain ⟨φ, h1, h2, h3⟩ := hg
  obtain ⟨ψ, g1, g2, g3⟩ := hh
  refine ⟨fun t => p * φ t + q * ψ t, ?_, by simp only [h2, g2], (h3.const_mul p).add (g3.const_mul q)⟩
  filter_upwards [h1, g1] with t ht gt
  exact (ht.const_mul p).add (gt.const_mul q)

theorem along_affine {g : ℝ → ℝ} {A B : ℝ} (hg : Along g A B) (p c : ℝ) :
    Along (fun t => p * g t + c) (p * A) (p * B) := by
  have := along_add hg (along_const c) p 1
  simpa using this

theorem along_mul {g h : ℝ → ℝ} {A B C D : ℝ} (hg : Along g A B) (hh : Along h C D) :
    Along (fun t => g t * h t) (A * h 0 + g 0 * C) (2 * A * C + B * h 0 + g 0 * D) := by
  obtain ⟨φ, h1, h2, h3⟩ := hg
  obtain ⟨ψ, g1, g2, g3⟩ := hh
  refine ⟨fun t => φ t * h t + g t * ψ t, ?_, by simp only [h2, g2], ?_⟩
  · filter_upwards [h1, g1] with t ht gt
    exact ht.mul gt
  · refine ((h3.mul g1.self_of_nhds).add (h1.self_of_nhds.mul g3)).congr_deriv ?_
    rw [h2, g2]; ring

theorem along_comp {g : ℝ → ℝ} {A B : ℝ} (hg : Along g A B) (F F' : ℝ → ℝ) (F2 : ℝ)
    (hF : ∀ᶠ y in 𝓝 (g 0), HasDerivAt F (F' y) y) (hF' : HasDerivAt F' F2 (g 0)) :
    Along (fun t => F (g t)) (F' (g 0) * A) (F2 * A * A + F' (g 0) * B) := by
  have hc := along_cont hg
  obtain ⟨φ, h1, h2, h3⟩ := hg
  refine ⟨fun t => F' (g t) * φ t, ?_, by simp only [h2], ?_⟩
  · filter_upwards [h1, hc.eventually hF] with t ht hFt
    exact hFt.comp t ht
  · have := (hF'.comp 0 h1.self_of_nhds).mul h3
    refine this.congr_deriv ?_
    simp only [Function.comp, h2]

/-- What the induction shows. -/
def Good (s s1 : HStore) (G : Nat → (Nat → ℝ) → ℝ) (x : Nat → ℝ) (d : Nat → Prop) (mJ mH : ℝ) (e : Expr) : Prop :=
  ∃ J H, hessian s s1 mJ mH e = some (J, H) ∧ StrictlySorted J ∧ StrictlySorted H ∧
    (J = [] ↔ ¬ HasDeriv G x d e) ∧
    ∀ v, ∃ A B, Along (fun t => den G e (line x v t)) A B ∧ dot J v = mJ * A ∧ quad H v = mH * B

theorem line_zero (x v : Nat → ℝ) : line x v 0 = x := by funext i; simp [line]

theorem ev_pos (g : (Nat → ℝ) → ℝ) (x v : Nat → ℝ) (h : ContinuousAt (fun t => g (line x v t)) 0) (hp : 0 < g x) :
    ∀ᶠ t in 𝓝 (0 : ℝ), 0 < g (line x v t) :=
  h.eventually (lt_mem_nhds (by simp only [line_zero]; exact hp))

theorem ev_neg (g : (Nat → ℝ) → ℝ) (x v : Nat → ℝ) (h : ContinuousAt (fun t => g (line x v t)) 0) (hp : g x < 0) :
    ∀ᶠ t in 𝓝 (0 : ℝ), g (line x v t) < 0 :=
  h.eventually (gt_mem_nhds (by simp only [line_zero]; exact hp))

theorem regular_of (G : Nat → (Nat → ℝ) → ℝ) (x : Nat → ℝ) (d : Nat → Prop) (e : Expr) (mJ mH : ℝ)
    (h : Regular2 G x d mJ mH e) : Regular G x e := by
  induction e generalizing mJ mH with
  | const c => trivial
  | var v i =>
    cases i with
    | none => trivial
    | some i => exact h
  | mvar k => trivial
  | constMul e c ih => exact ih _ _ h
  | variation e c ih => exact ⟨h.1, ih _ _ h.2⟩
  | constDiv e c ih => exact ⟨h.1, ih _ _ h.2⟩
  | constAdd e c ih => exact ih _ _ h
  | constSub e c ih => exact ih _ _ h
  | neg e ih => exact ih _ _ h
  | pos e ih => exact ih _ _ h
  | abs e ih =>
    rcases h with h | h
    · exact ⟨ne_of_gt h.1, ih _ _ h.2⟩
    · exact ⟨ne_of_lt h.1, ih _ _ h.2⟩
  | exp e ih => exact ih _ _ h.2
  | log e ih =>
    obtain ⟨_, h2, i, rfl⟩ := h
    exact ⟨h2, rfl⟩
  | sin e ih => exact ih _ _ h
  | cos e ih => exact ih _ _ h
  | sqrt e ih => exact ⟨h.1, ih _ _ h.2⟩
  | mul l r ihl ihr => exact ⟨ihl _ _ h.2.1, ihr _ _ h.2.2⟩
  | add l r ihl ihr => exact ⟨ihl _ _ h.1, ihr _ _ h.2⟩
  | sub l r ihl ihr => exact ⟨ihl _ _ h.1, ihr _ _ h.2⟩
  | cond c l r ihc ihl ihr =>
    obtain ⟨h1, _, h3⟩ := h
    rcases h3 with h3 | h3
    · exact ⟨ne_of_gt h3.1, h1, fun _ => ihl _ _ h3.2, fun hn => absurd hn (not_lt.2 (le_of_lt h3.1))⟩
    · exact ⟨ne_of_lt h3.1, h1, fun hn => absurd hn (not_le.2 h3.1), fun _ => ihr _ _ h3.2⟩
  | branch b l r ihl ihr =>
    cases b with
    | true => exact ihl _ _ h
    | false => exact ihr _ _ h
  | recip e c ih => exact h.elim
  | softAbs e tol ih => exact h.elim
  | softSign e tol ih => exact h.elim
  | softMax l r tol ihl ihr => exact h.elim
  | softMin l r tol ihl ihr => exact h.elim
  | div l r ihl ihr => exact h.elim
  | pow l r ihl ihr => exact h.elim
  | atan2 l r ihl ihr => exact h.elim
  | powConst e c ih => exact h.elim
  | constPow c e ih => exact h.elim
  | func e f f' ih => exact h.elim

theorem scale_nil_iff {ι : Type} (r : RowI ι ℝ) (c : ℝ) : scale r c = [] ↔ r = [] := by simp [scale]

theorem sortRow_sorted (r : Row ℝ) (h : StrictlySorted r) : sortRow r = r := by
  unfold sortRow; rw [strict_isSorted r h]; rfl

/-- The pattern of unary functions: derivatives of the argument requested with `(p, q)`, a merge, a scaling. -/
theorem unary_good {s s1 : HStore} {G : Nat → (Nat → ℝ) → ℝ} {x : Nat → ℝ} {d : Nat → Prop} {e : Expr} {p q : ℝ}
    (hc : Good s s1 G x d p q e) (f : Expr) (mJ mH a b c : ℝ) (F F' : ℝ → ℝ) (F2 : ℝ)
    (hhess : ∀ J A H, hessian s s1 p q e = some (J, A) → mergeJH a J J [(b, A)] = some H →
      hessian s s1 mJ mH f = some (scale J c, H))
    (hden : ∀ y, den G f y = F (den G e y)) (hd : HasDeriv G x d f ↔ HasDeriv G x d e)
    (hF : ∀ᶠ y in 𝓝 (den G e x), HasDerivAt F (F' y) y) (hF' : HasDerivAt F' F2 (den G e x))
    (h1 : c * p = mJ * F' (den G e x)) (h2 : a * p * p = mH * F2) (h3 : b * q = mH * F' (den G e x)) :
    Good s s1 G x d mJ mH f := by
  obtain ⟨J, A, g1, g2, g3, g4, g5⟩ := hc
  obtain ⟨H, m1, m2, m3⟩ := mergeJH_spec a J J [(b, A)] g2 g2 (by simpa using g3) Iff.rfl
  refine ⟨scale J c, H, ?_, sorted_scale J _ g2, m2, by rw [scale_nil_iff, g4, hd], fun v => ?_⟩
  · exact hhess J A H g1 m1
  · obtain ⟨P, Q, k1, k2, k3⟩ := g5 v
    have hl : den G e (line x v 0) = den G e x := by rw [line_zero]
    have := along_comp k1 F F' F2 (by simp only [hl]; exact hF) (by simp only [hl]; exact hF')
    simp only [hl] at this
    refine ⟨_, _, along_congr this (.of_forall fun t => hden _), ?_, ?_⟩
    · rw [dot_lin, lin_scale, ← dot_lin, k2]
      calc c * (p * P) = (c * p) * P := by ring
        _ = _ := by rw [h1]; ring
    · rw [m3, k2]
      simp only [List.map_cons, List.map_nil, List.sum_cons, List.sum_nil, add_zero, k3]
      calc a * (p * P) * (p * P) + b * (q * Q) = (a * p * p) * P * P + (b * q) * Q := by ring
        _ = _ := by rw [h2, h3]; ring

/-- The pattern of affine functions. -/
theorem affine_good {s s1 : HStore} {G : Nat → (Nat → ℝ) → ℝ} {x : Nat → ℝ} {d : Nat → Prop} {e : Expr} {mJ mH p : ℝ}
    (hc : Good s s1 G x d (mJ * p) (mH * p) e) (f : Expr) (c : ℝ)
    (hhess : hessian s s1 mJ mH f = hessian s s1 (mJ * p) (mH * p) e)
    (hden : ∀ v, ∀ᶠ t in 𝓝 0, den G f (line x v t) = p * den G e (line x v t) + c)
    (hd : HasDeriv G x d f ↔ HasDeriv G x d e) :
    Good s s1 G x d mJ mH f := by
  obtain ⟨J, A, g1, g2, g3, g4, g5⟩ := hc
  refine ⟨J, A, by rw [hhess, g1], g2, g3, by rw [g4, hd], fun v => ?_⟩
  obtain ⟨P, Q, k1, k2, k3⟩ := g5 v
  exact ⟨_, _, along_congr (along_affine k1 p c) (hden v), by rw [k2]; ring, by rw [k3]; ring⟩

theorem liveValue_eq (s s1 : HStore) (e : Expr) (h : ∀ k, e = .mvar k → (s1 k).value = (s k).value) :
    liveValue s.low s1.low e = value s.low e := by
  cases e <;> try rfl
  rename_i k
  exact h k rfl

theorem hess_good (s s1 : HStore) (G : Nat → (Nat → ℝ) → ℝ) (x : Nat → ℝ) (d : Nat → Prop) (hc : HCtx s s1 G x)
    (hd : ∀ k, d k ↔ (s k).entries ≠ []) (e : Expr) (mJ mH : ℝ) (hr : Regular2 G x d mJ mH e)
    (hm : ∀ k, MulOperand k e → (s1 k).value = (s k).value) : Good s s1 G x d mJ mH e := by
  have hval : ∀ e, Regular G x e → value s.low e = den G e x :=
    fun e h => value_of s.low G x (fun k => (hc.rep k).1) e h
  induction e generalizing mJ mH with
  | const c =>
    refine ⟨[], [], rfl, by simp [StrictlySorted], by simp [StrictlySorted], by simp [HasDeriv], fun v => ?_⟩
    exact ⟨0, 0, along_const c, by simp [dot], by simp [quad]⟩
  | var w i =>
    cases i with
    | none =>
      refine ⟨[], [], rfl, by simp [StrictlySorted], by simp [StrictlySorted], by simp [HasDeriv], fun v => ?_⟩
      exact ⟨0, 0, along_const w, by simp [dot], by simp [quad]⟩
    | some i =>
      refine ⟨[(i, mJ)], [], rfl, by simp [StrictlySorted], by simp [StrictlySorted], by simp [HasDeriv], fun v => ?_⟩
      exact ⟨v i, 0, along_line x v i, by simp [dot], by simp [quad]⟩
  | mvar k =>
    obtain ⟨h1, h2, h3, h4⟩ := hc.rep k
    refine ⟨scale (s k).entries mJ, scale (s k).hess mH, ?_, sorted_scale _ _ h3, sorted_scale _ _ h4, ?_, fun v => ?_⟩
    · rw [hessian, hc.ent, hc.hes, sortRow_sorted _ h3]
    · rw [scale_nil_iff, HasDeriv, hd, not_not]
    · obtain ⟨φ, g1, g2, g3⟩ := h2 v
      refine ⟨_, _, ⟨φ, g1, g2, g3⟩, ?_, ?_⟩
      · rw [dot_lin, lin_scale, ← dot_lin]
      · rw [quad_lin, lin_scale, ← quad_lin]
  | constMul e c ih =>
    exact affine_good (ih _ _ hr hm) _ 0 rfl (fun v => .of_forall fun t => by simp [den]) Iff.rfl
  | variation e c ih =>
    obtain ⟨rfl, hr⟩ := hr
    exact affine_good (p := 1) (ih _ _ (by simpa using hr) hm) _ 0 rfl
      (fun v => .of_forall fun t => by simp [den]) Iff.rfl
  | constDiv e c ih =>
    exact affine_good (p := 1 / c) (ih _ _ (by simpa only [mul_one_div] using hr.2) hm) _ 0 rfl
      (fun v => .of_forall fun t => by simp only [den]; ring) Iff.rfl
  | constAdd e c ih =>
    exact affine_good (p := 1) (ih _ _ (by simpa [Regular2] using hr) hm) _ c (by simp [hessian])
      (fun v => .of_forall fun t => by simp [den]) Iff.rfl
  | constSub e c ih =>
    exact affine_good (p := -1) (ih _ _ (by simpa [Regular2] using hr) hm) _ c (by simp [hessian])
      (fun v => .of_forall fun t => by simp only [den]; ring) Iff.rfl
  | neg e ih =>
    exact affine_good (p := -1) (ih _ _ (by simpa [Regular2] using hr) hm) _ 0 (by simp [hessian])
      (fun v => .of_forall fun t => by simp only [den]; ring) Iff.rfl
  | pos e ih =>
    exact affine_good (p := 1) (ih _ _ (by simpa [Regular2] using hr) hm) _ 0 (by simp [hessian])
      (fun v => .of_forall fun t => by simp [den]) Iff.rfl
  | abs e ih =>
    have hcont : ∀ p q, Good s s1 G x d p q e → ∀ v, ContinuousAt (fun t => den G e (line x v t)) 0 := by
      intro p q ⟨_, _, _, _, _, _, g⟩ v
      obtain ⟨_, _, h, _⟩ := g v
      exact along_cont h
    rcases hr with ⟨hp, hr⟩ | ⟨hp, hr⟩
    · have hv := hval e (regular_of _ _ _ _ _ _ hr)
      have hg := ih _ _ hr hm
      refine affine_good (e := e) (p := 1) (by simpa using hg) _ 0 ?_ (fun v => ?_) Iff.rfl
      · simp only [hessian, hv, abs_eq_zero, ne_of_gt hp, not_lt.2 (le_of_lt hp), ↓reduceIte]; ring_nf
      · have := ev_pos (den G e) x v (hcont _ _ hg v) hp
        filter_upwards [this] with t ht
        simp [den, abs_of_pos ht]
    · have hv := hval e (regular_of _ _ _ _ _ _ hr)
      have hg := ih _ _ hr hm
      refine affine_good (e := e) (p := -1) (by simpa using hg) _ 0 ?_ (fun v => ?_) Iff.rfl
      · simp only [hessian, hv, abs_eq_zero, ne_of_lt hp, hp, ↓reduceIte]; ring_nf
      · have := ev_neg (den G e) x v (hcont _ _ hg v) hp
        filter_upwards [this] with t ht
        simp [den, abs_of_neg ht]
  | exp e ih =>
    obtain ⟨habs, hr⟩ := hr
    have hv := hval e (regular_of _ _ _ _ _ _ hr)
    have hpos := Real.exp_pos (den G e x)
    have hsign : (if mJ * Real.exp (den G e x) < 0 then (-1 : ℝ) else 1) = if mJ < 0 then -1 else 1 := by
      by_cases h : mJ < 0
      · rw [if_pos h, if_pos (mul_neg_of_neg_of_pos h hpos)]
      · rw [if_neg h, if_neg (not_lt.2 (mul_nonneg (not_lt.1 h) (le_of_lt hpos)))]
    have hs2 : mJ * (if mJ < 0 then (-1 : ℝ) else 1) = mH ∧
        ((if mJ < 0 then (-1 : ℝ) else 1) * (if mJ < 0 then (-1 : ℝ) else 1) = 1) := by
      rw [habs]
      by_cases h : mJ < 0
      · simp [h, abs_of_neg h]
      · simp [h, abs_of_nonneg (not_lt.1 h)]
    refine unary_good (ih _ _ hr hm) _ mJ mH (mJ * Real.exp (den G e x) * (if mJ < 0 then -1 else 1)) 1
      (mJ * Real.exp (den G e x) * (if mJ < 0 then -1 else 1)) Real.exp Real.exp (Real.exp (den G e x)) ?_ (fun _ => rfl) Iff.rfl
      (.of_forall fun y => Real.hasDerivAt_exp y) (Real.hasDerivAt_exp _) ?_ ?_ ?_
    · intro J A H hJ hH
      simp only [hessian, hv, hsign, hJ, hH]
    · rw [mul_assoc (mJ * _), hs2.2]; ring
    · calc _ = (mJ * (if mJ < 0 then (-1 : ℝ) else 1)) * Real.exp (den G e x) *
            ((if mJ < 0 then (-1 : ℝ) else 1) * (if mJ < 0 then (-1 : ℝ) else 1)) := by ring
        _ = _ := by rw [hs2.1, hs2.2, mul_one]
    · ring
  | log e ih =>
    obtain ⟨habs, hp, i, rfl⟩ := hr
    simp only [den] at hp
    have hinv : 0 < 1 / x i := by positivity
    have hsign : (if mJ * (1 / x i) < 0 then (-1 : ℝ) else 1) = if mJ < 0 then -1 else 1 := by
      by_cases h : mJ < 0
      · rw [if_pos h, if_pos (mul_neg_of_neg_of_pos h hinv)]
      · rw [if_neg h, if_neg (not_lt.2 (mul_nonneg (not_lt.1 h) (le_of_lt hinv)))]
    have hs2 : mJ * (if mJ < 0 then (-1 : ℝ) else 1) = mH ∧
        ((if mJ < 0 then (-1 : ℝ) else 1) * (if mJ < 0 then (-1 : ℝ) else 1) = 1) := by
      rw [habs]
      by_cases h : mJ < 0
      · simp [h, abs_of_neg h]
      · simp [h, abs_of_nonneg (not_lt.1 h)]
    have hg : Good s s1 G x d (if mJ < 0 then -1 else 1) (mH * (1 / x i)) (.var (x i) (some i)) := ih _ _ rfl hm
    refine unary_good hg _ mJ mH (-(mJ * (1 / x i)) * (if mJ < 0 then -1 else 1) * (1 / x i)) 1
      (mJ * (1 / x i) * (if mJ < 0 then -1 else 1)) Real.log (fun y => y⁻¹) (-(x i ^ 2)⁻¹) ?_ (fun _ => rfl) Iff.rfl
      ?_ ?_ ?_ ?_ ?_
    · intro J A H hJ hH
      have hv : value s.low (.var (x i) (some i)) = x i := rfl
      simp only [hessian] at hJ
      have hh : ∀ p q, hessian s s1 p q (.var (x i) (some i)) = some ([(i, p)], []) := fun _ _ => by simp only [hessian]
      rw [hessian.eq_def]
      simp only [hv, hsign, hh]
      rw [Option.some.injEq, Prod.mk.injEq] at hJ
      obtain ⟨rfl, rfl⟩ := hJ
      rw [hH]
    · simp only [den]
      filter_upwards [lt_mem_nhds hp] with y hy
      exact Real.hasDerivAt_log (ne_of_gt hy)
    · simp only [den]; exact hasDerivAt_inv (ne_of_gt hp)
    · simp only [den]; rw [mul_assoc (mJ * _), hs2.2]; ring
    · calc _ = -((mJ * (if mJ < 0 then (-1 : ℝ) else 1)) * (1 / x i) * (1 / x i)) *
            ((if mJ < 0 then (-1 : ℝ) else 1) * (if mJ < 0 then (-1 : ℝ) else 1)) := by ring
        _ = _ := by rw [hs2.1, hs2.2]; field_simp
    · simp only [den]; ring
  | sin e ih =>
    have hv := hval e (regular_of _ _ _ _ _ _ hr)
    refine unary_good (ih _ _ hr hm) _ mJ mH (-Real.sin (den G e x) * mH) (Real.cos (den G e x) * mH)
      (Real.cos (den G e x) * mJ) Real.sin Real.cos (-Real.sin (den G e x)) ?_ (fun _ => rfl) Iff.rfl
      (.of_forall fun y => Real.hasDerivAt_sin y) (Real.hasDerivAt_cos _) (by ring) (by ring) (by ring)
    intro J A H hJ hH
    simp only [hessian, hv, hJ, hH]
  | cos e ih =>
    have hv := hval e (regular_of _ _ _ _ _ _ hr)
    refine unary_good (ih _ _ hr hm) _ mJ mH (-Real.cos (den G e x) * mH) (-Real.sin (den G e x) * mH)
      (-Real.sin (den G e x) * mJ) Real.cos (fun y => -Real.sin y) (-Real.cos (den G e x)) ?_ (fun _ => rfl) Iff.rfl
      (.of_forall fun y => Real.hasDerivAt_cos y) (Real.hasDerivAt_sin _).neg (by ring) (by ring) (by ring)
    intro J A H hJ hH
    simp only [hessian, hv, hJ, hH]
  | sqrt e ih =>
    obtain ⟨hp, hr⟩ := hr
    have hv := hval e (regular_of _ _ _ _ _ _ hr)
    have hq : 0 < Real.sqrt (den G e x) := Real.sqrt_pos.2 hp
    have hF' : HasDerivAt (fun y => 1 / (2 * Real.sqrt y)) (-0.25 / Real.sqrt (den G e x) ^ 3) (den G e x) := by
      have h1 := ((Real.hasDerivAt_sqrt (ne_of_gt hp)).const_mul 2).inv (by positivity)
      have h2 : (fun y => 1 / (2 * Real.sqrt y)) = (fun y => 2 * Real.sqrt y)⁻¹ := by funext y; simp
      rw [h2]
      refine h1.congr_deriv ?_
      generalize Real.sqrt (den G e x) = q at hq
      field_simp
      norm_num
    refine unary_good (ih _ _ hr hm) _ mJ mH (-0.25 / Real.sqrt (den G e x) ^ 3 * mH) (0.5 / Real.sqrt (den G e x) * mH)
      (0.5 / Real.sqrt (den G e x) * mJ) Real.sqrt (fun y => 1 / (2 * Real.sqrt y)) (-0.25 / Real.sqrt (den G e x) ^ 3)
      ?_ (fun _ => rfl) Iff.rfl ?_ hF' ?_ (by ring) ?_
    · intro J A H hJ hH
      simp only [hessian, hv, hJ, hH, ne_eq, ne_of_gt hq, not_false_eq_true, ↓reduceIte]
    · filter_upwards [lt_mem_nhds hp] with y hy
      exact Real.hasDerivAt_sqrt (ne_of_gt hy)
    · field_simp; ring
    · field_simp; ring
  | mul l r ihl ihr =>
    obtain ⟨hiff, hl, hrr⟩ := hr
    have hvl := hval l (regular_of _ _ _ _ _ _ hl)
    have hvr := hval r (regular_of _ _ _ _ _ _ hrr)
    have hll := liveValue_eq s s1 l (fun k hk => hm k (.inl hk))
    have hlr := liveValue_eq s s1 r (fun k hk => hm k (.inr (.inl hk)))
    obtain ⟨JL, HL, a1, a2, a3, a4, a5⟩ := ihl 1 1 hl (fun k hk => hm k (.inr (.inr (.inl hk))))
    obtain ⟨JR, HR, b1, b2, b3, b4, b5⟩ := ihr 1 1 hrr (fun k hk => hm k (.inr (.inr (.inr hk))))
    obtain ⟨J, j1, j2, j3, j4⟩ := merge_lin (fun _ => 0) (den G r x * mJ) (den G l x * mJ) JL JR a2 b2
    obtain ⟨H, m1, m2, m3⟩ := mergeJH_spec (2 * mH) JL JR [(den G r x * mH, HL), (den G l x * mH, HR)] a2 b2
      (by simp [a3, b3]) (by rw [a4, b4, hiff])
    refine ⟨J, H, ?_, j2, m2, ?_, fun v => ?_⟩
    · simp only [hessian, a1, b1, hll, hlr, hvl, hvr, j1, m1]
    · rw [j3, a4, b4, HasDeriv]; tauto
    · obtain ⟨P, Q, k1, k2, k3⟩ := a5 v
      obtain ⟨P', Q', k1', k2', k3'⟩ := b5 v
      have := along_mul k1 k1'
      simp only [line_zero] at this
      refine ⟨_, _, this, ?_, ?_⟩
      · rw [dot_lin, j4, ← dot_lin, ← dot_lin, k2, k2']; ring
      · rw [m3, k2, k2']
        simp only [List.map_cons, List.map_nil, List.sum_cons, List.sum_nil, add_zero, k3, k3']
        ring
  | add l r ihl ihr =>
    obtain ⟨JL, HL, a1, a2, a3, a4, a5⟩ := ihl 1 1 hr.1 (fun k hk => hm k (.inl hk))
    obtain ⟨JR, HR, b1, b2, b3, b4, b5⟩ := ihr 1 1 hr.2 (fun k hk => hm k (.inr hk))
    obtain ⟨J, j1, j2, j3, j4⟩ := merge_lin (fun _ => 0) mJ mJ JL JR a2 b2
    obtain ⟨H, m1, m2, m3, m4⟩ := merge_lin (fun _ => 0) mH mH HL HR a3 b3
    refine ⟨J, H, ?_, j2, m2, ?_, fun v => ?_⟩
    · simp only [hessian, a1, b1, j1, m1]
    · rw [j3, a4, b4, HasDeriv]; tauto
    · obtain ⟨P, Q, k1, k2, k3⟩ := a5 v
      obtain ⟨P', Q', k1', k2', k3'⟩ := b5 v
      refine ⟨_, _, along_congr (along_add k1 k1' 1 1) (.of_forall fun t => by simp [den]), ?_, ?_⟩
      · rw [dot_lin, j4, ← dot_lin, ← dot_lin, k2, k2']; ring
      · rw [quad_lin, m4, ← quad_lin, ← quad_lin, k3, k3']; ring
  | sub l r ihl ihr =>
    obtain ⟨JL, HL, a1, a2, a3, a4, a5⟩ := ihl 1 1 hr.1 (fun k hk => hm k (.inl hk))
    obtain ⟨JR, HR, b1, b2, b3, b4, b5⟩ := ihr 1 1 hr.2 (fun k hk => hm k (.inr hk))
    obtain ⟨J, j1, j2, j3, j4⟩ := merge_lin (fun _ => 0) mJ (-mJ) JL JR a2 b2
    obtain ⟨H, m1, m2, m3, m4⟩ := merge_lin (fun _ => 0) mH (-mH) HL HR a3 b3
    refine ⟨J, H, ?_, j2, m2, ?_, fun v => ?_⟩
    · simp only [hessian, a1, b1, j1, m1]
    · rw [j3, a4, b4, HasDeriv]; tauto
    · obtain ⟨P, Q, k1, k2, k3⟩ := a5 v
      obtain ⟨P', Q', k1', k2', k3'⟩ := b5 v
      refine ⟨_, _, along_congr (along_add k1 k1' 1 (-1)) (.of_forall fun t => by simp only [den]; ring), ?_, ?_⟩
      · rw [dot_lin, j4, ← dot_lin, ← dot_lin, k2, k2']; ring
      · rw [quad_lin, m4, ← quad_lin, ← quad_lin, k3, k3']; ring
  | cond c l r ihc ihl ihr =>
    obtain ⟨h1, h2, h3⟩ := hr
    have hv := hval c h1
    rcases h3 with ⟨hp, h3⟩ | ⟨hp, h3⟩
    · have hg := ihl _ _ h3 (fun k hk => hm k (.inr (.inl hk)))
      refine affine_good (e := l) (p := 1) (by simpa using hg) _ 0 ?_ (fun v => ?_) ?_
      · simp only [hessian, hv, ge_iff_le, le_of_lt hp, ↓reduceIte, mul_one]
      · have := ev_pos (den G c) x v (h2 v) hp
        filter_upwards [this] with t ht
        simp [den, le_of_lt ht]
      · simp [HasDeriv, le_of_lt hp, not_lt.2 (le_of_lt hp)]
    · have hg := ihr _ _ h3 (fun k hk => hm k (.inr (.inr hk)))
      refine affine_good (e := r) (p := 1) (by simpa using hg) _ 0 ?_ (fun v => ?_) ?_
      · simp only [hessian, hv, ge_iff_le, not_le.2 hp, ↓reduceIte, mul_one]
      · have := ev_neg (den G c) x v (h2 v) hp
        filter_upwards [this] with t ht
        simp [den, not_le.2 ht]
      · simp [HasDeriv, hp, not_le.2 hp]
  | branch b l r ihl ihr =>
    cases b with
    | true =>
      exact affine_good (e := l) (p := 1) (by simpa using ihl _ _ hr (fun k hk => hm k (.inl hk))) _ 0 (by simp [hessian])
        (fun v => .of_forall fun t => by simp [den]) (by simp [HasDeriv])
    | false =>
      exact affine_good (e := r) (p := 1) (by simpa using ihr _ _ hr (fun k hk => hm k (.inr hk))) _ 0 (by simp [hessian])
        (fun v => .of_forall fun t => by simp [den]) (by simp [HasDeriv])
  | recip e c ih => exact hr.elim
  | softAbs e tol ih => exact hr.elim
  | softSign e tol ih => exact hr.elim
  | softMax l r tol ihl ihr => exact hr.elim
  | softMin l r tol ihl ihr => exact hr.elim
  | div l r ihl ihr => exact hr.elim
  | pow l r ihl ihr => exact hr.elim
  | atan2 l r ihl ihr => exact hr.elim
  | powConst e c ih => exact hr.elim
  | constPow c e ih => exact hr.elim
  | func e f f' ih => exact hr.elim

end Verif.Autodiff
