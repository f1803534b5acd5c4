import Verif.Autodiff.HessDeriv

/-!
# C31: second derivatives
-/

namespace Verif.Autodiff

open Verif.Sparse Filter Topology

theorem hctx_of (s : HStore) (G : Nat → (Nat → ℝ) → ℝ) (x : Nat → ℝ) (h : Represents2 s G x) : HCtx s s G x :=
  ⟨h, fun _ => rfl, fun _ => rfl⟩

theorem second_of {s s1 : HStore} {G : Nat → (Nat → ℝ) → ℝ} {x : Nat → ℝ} {d : Nat → Prop} {e : Expr}
    (h : Good s s1 G x d 1 1 e) :
    ∃ J H, hessian s s1 1 1 e = some (J, H) ∧ StrictlySorted J ∧ StrictlySorted H ∧ (J ≠ [] ↔ HasDeriv G x d e) ∧
      Second (den G e) x J H := by
  obtain ⟨J, H, h1, h2, h3, h4, h5⟩ := h
  refine ⟨J, H, h1, h2, h3, by rw [ne_eq, h4, not_not], fun v => ?_⟩
  obtain ⟨A, B, ⟨φ, k1, k2, k3⟩, k4, k5⟩ := h5 v
  rw [one_mul] at k4 k5
  exact ⟨φ, k1, by rw [k2, k4], by rw [k5]; exact k3⟩

/-- **C31, expressions.**  `GetHessian` of a covered expression at a regular point does not fail and delivers the first
and the second derivative of the function that the expression denotes, in sorted rows with one entry per
unknown and per pair of unknowns. -/
theorem C31_expression_partial (s : HStore) (G : Nat → (Nat → ℝ) → ℝ) (x : Nat → ℝ) (h : Represents2 s G x) (e : Expr)
    (hr : Regular2 G x (fun k => (s k).entries ≠ []) 1 1 e) :
    ∃ J H, hessian s s 1 1 e = some (J, H) ∧ StrictlySorted J ∧ StrictlySorted H ∧ Second (den G e) x J H := by
  obtain ⟨J, H, h1, h2, h3, _, h5⟩ := second_of
    (hess_good s s G x _ (hctx_of s G x h) (fun _ => Iff.rfl) e 1 1 hr (fun _ _ => rfl))
  exact ⟨J, H, h1, h2, h3, h5⟩

/-! ### Programs -/

theorem rep2_set (s : HStore) (G : Nat → (Nat → ℝ) → ℝ) (x : Nat → ℝ) (h : Represents2 s G x) (k : Nat)
    (g : (Nat → ℝ) → ℝ) (v : ℝ) (J : Row ℝ) (H : HRow) (hv : v = g x) (hg : Second g x J H)
    (hJ : StrictlySorted J) (hH : StrictlySorted H) :
    Represents2 (s.set k ⟨v, J, H⟩) (setFun G k g) x := by
  intro j
  unfold HStore.set setFun
  by_cases hj : j = k
  · simp only [hj, ↓reduceIte]; exact ⟨hv, hg, hJ, hH⟩
  · simp only [hj, ↓reduceIte]; exact h j

theorem hctx_set (s : HStore) (G : Nat → (Nat → ℝ) → ℝ) (x : Nat → ℝ) (h : Represents2 s G x) (k : Nat) (v : ℝ) :
    HCtx s (s.set k ⟨v, (s k).entries, (s k).hess⟩) G x :=
  ⟨h, fun j => by unfold HStore.set; by_cases hj : j = k <;> simp [hj],
    fun j => by unfold HStore.set; by_cases hj : j = k <;> simp [hj]⟩

theorem hvalue_set (s : HStore) (k : Nat) (v : HVar) (e : Expr) (hk : ¬ MulOperand k e) (j : Nat)
    (hj : MulOperand j e) : (s.set k v j).value = (s j).value := by
  unfold HStore.set
  have : j ≠ k := fun h => hk (h ▸ hj)
  simp [this]

theorem derivs_set (s : HStore) (d : Nat → Prop) (hd : ∀ k, d k ↔ (s k).entries ≠ []) (k : Nat) (v : HVar) (P : Prop)
    (hP : P ↔ v.entries ≠ []) (j : Nat) : (if j = k then P else d j) ↔ (s.set k v j).entries ≠ [] := by
  unfold HStore.set
  by_cases hj : j = k
  · simp only [hj, ↓reduceIte]; exact hP
  · simp only [hj, ↓reduceIte]; exact hd j

theorem derivs_same (s : HStore) (d : Nat → Prop) (hd : ∀ k, d k ↔ (s k).entries ≠ []) (k : Nat) (v : HVar)
    (hv : v.entries = [] ↔ (s k).entries = []) (j : Nat) : d j ↔ (s.set k v j).entries ≠ [] := by
  unfold HStore.set
  by_cases hj : j = k
  · subst hj; simp only [↓reduceIte, ne_eq, hv]; exact hd j
  · simp only [hj, ↓reduceIte]; exact hd j

theorem second_affine (g : (Nat → ℝ) → ℝ) (x : Nat → ℝ) (J : Row ℝ) (H : HRow) (h : Second g x J H) (p c : ℝ) :
    Second (fun y => p * g y + c) x (scale J p) (scale H p) := by
  intro v
  have := along_affine (h v) p c
  rw [dot_lin, lin_scale, quad_lin, lin_scale, ← dot_lin, ← quad_lin]
  exact this

theorem scale_one {ι : Type} (r : RowI ι ℝ) : scale r 1 = r := by simp [scale]

theorem hcombine_spec (s : HStore) (k : Nat) (c v : ℝ) (e : Expr) (G : Nat → (Nat → ℝ) → ℝ) (x : Nat → ℝ)
    (d : Nat → Prop) (h : Represents2 s G x) (hd : ∀ k, d k ↔ (s k).entries ≠ [])
    (hr : Regular2 G x d 1 1 e) (hk : ¬ MulOperand k e) (hv : v = G k x + c * den G e x) :
    ∃ s', hcombine s k c v e = some s' ∧ Represents2 s' (setFun G k fun y => G k y + c * den G e y) x ∧
      ∀ j, (if j = k then d k ∨ HasDeriv G x d e else d j) ↔ (s' j).entries ≠ [] := by
  obtain ⟨J, H, h1, h2, h3, h4, h5⟩ := second_of
    (hess_good s _ G x d (hctx_set s G x h k v) hd e 1 1 hr (hvalue_set s k _ e hk))
  obtain ⟨_, g2, g3, g4⟩ := h k
  obtain ⟨J', j1, j2, j3, j4⟩ := merge_lin (fun _ => 0) 1 c (s k).entries J g3 h2
  obtain ⟨H', m1, m2, _, m4⟩ := merge_lin (fun _ => 0) 1 c (s k).hess H g4 h3
  refine ⟨s.set k ⟨v, J', H'⟩, ?_, rep2_set s G x h k _ v J' H' hv ?_ j2 m2, derivs_set s d hd k _ _ ?_⟩
  · simp only [hcombine, h1, j1, m1]
  · intro w
    have := along_add (g2 w) (h5 w) 1 c
    rw [dot_lin, quad_lin, j4, m4]
    refine along_congr this (.of_forall fun t => ?_)
    ring
  · simp only [ne_eq]
    rw [j3, hd, ← h4]; tauto

theorem hexec_spec (s : HStore) (c : HStmt) (G : Nat → (Nat → ℝ) → ℝ) (x : Nat → ℝ) (d : Nat → Prop)
    (h : Represents2 s G x) (hd : ∀ k, d k ↔ (s k).entries ≠ []) (hr : HRegularStmt G x d c) :
    ∃ s', hexec s c = some s' ∧ Represents2 s' (hden G c) x ∧ ∀ j, derivs G x d c j ↔ (s' j).entries ≠ [] := by
  have hval : ∀ e, Regular G x e → value s.low e = den G e x :=
    fun e h' => value_of s.low G x (fun k => (h k).1) e h'
  cases c with
  | assign k e =>
    obtain ⟨J, H, h1, h2, h3, h4, h5⟩ := second_of
      (hess_good s s G x d (hctx_of s G x h) hd e 1 1 hr (fun _ _ => rfl))
    exact ⟨_, by simp only [hexec, h1], rep2_set s G x h k _ _ J H (hval e (regular_of _ _ _ _ _ _ hr)) h5 h2 h3,
      derivs_set s d hd k _ _ h4.symm⟩
  | assignRef k e =>
    obtain ⟨J, H, h1, h2, h3, h4, h5⟩ := second_of
      (hess_good s _ G x d (hctx_set s G x h k (value s.low e)) hd e 1 1 hr.1 (hvalue_set s k _ e hr.2))
    exact ⟨_, by simp only [hexec, h1], rep2_set s G x h k _ _ J H (hval e (regular_of _ _ _ _ _ _ hr.1)) h5 h2 h3,
      derivs_set s d hd k _ _ h4.symm⟩
  | assignConst k c =>
    refine ⟨_, rfl, rep2_set s G x h k _ _ [] [] rfl ?_ (by simp [StrictlySorted]) (by simp [StrictlySorted]),
      derivs_set s d hd k _ _ (by simp)⟩
    intro v
    exact along_const c
  | addAssign k e =>
    have := hcombine_spec s k 1 (e := e) (G := G) (x := x) (d := d) (h := h) (hd := hd) (hr := hr.1) (hk := hr.2)
      (v := (s k).value + value s.low e) (hv := by rw [(h k).1, hval e (regular_of _ _ _ _ _ _ hr.1)]; ring)
    simpa only [hexec, hden, derivs, one_mul] using this
  | subAssign k e =>
    have := hcombine_spec s k (-1) (e := e) (G := G) (x := x) (d := d) (h := h) (hd := hd) (hr := hr.1) (hk := hr.2)
      (v := (s k).value - value s.low e) (hv := by rw [(h k).1, hval e (regular_of _ _ _ _ _ _ hr.1)]; ring)
    simpa only [hexec, hden, derivs, neg_one_mul, ← sub_eq_add_neg] using this
  | addConst k c =>
    refine ⟨_, rfl, rep2_set s G x h k _ _ _ _ (by rw [(h k).1]) ?_ (h k).2.2.1 (h k).2.2.2,
      derivs_same s d hd k _ Iff.rfl⟩
    have := second_affine _ _ _ _ (h k).2.1 1 c
    simpa only [scale_one, one_mul] using this
  | subConst k c =>
    refine ⟨_, rfl, rep2_set s G x h k _ _ _ _ (by rw [(h k).1]) ?_ (h k).2.2.1 (h k).2.2.2,
      derivs_same s d hd k _ Iff.rfl⟩
    have := second_affine _ _ _ _ (h k).2.1 1 (-c)
    simpa only [scale_one, one_mul, ← sub_eq_add_neg] using this
  | mulConst k c =>
    refine ⟨_, rfl, rep2_set s G x h k _ _ _ _ (by rw [(h k).1]) ?_ (sorted_scale _ _ (h k).2.2.1)
      (sorted_scale _ _ (h k).2.2.2), derivs_same s d hd k _ (scale_nil_iff _ _)⟩
    have := second_affine _ _ _ _ (h k).2.1 c 0
    simpa only [add_zero, mul_comm c] using this
  | divConst k c =>
    refine ⟨_, rfl, rep2_set s G x h k _ _ _ _ (by rw [(h k).1]) ?_ (sorted_scale _ _ (h k).2.2.1)
      (sorted_scale _ _ (h k).2.2.2), derivs_same s d hd k _ (by simp)⟩
    have := second_affine _ _ _ _ (h k).2.1 c⁻¹ 0
    simpa only [add_zero, mul_comm c⁻¹, ← div_eq_mul_inv, scale] using this

/-- **C31, programs.**  Every program of covered statements on variables with second derivatives runs without failure,
and afterwards each variable holds the value, the first and the second derivative of the function that the
statements define, in sorted rows. -/
theorem C31_programs_partial (cs : List HStmt) (s : HStore) (G : Nat → (Nat → ℝ) → ℝ) (x : Nat → ℝ)
    (h : Represents2 s G x) (hr : HRegularProg x G (fun k => (s k).entries ≠ []) cs) :
    ∃ s', hexecAll s cs = some s' ∧ Represents2 s' (cs.foldl hden G) x := by
  have gen : ∀ (cs : List HStmt) (s : HStore) (G : Nat → (Nat → ℝ) → ℝ) (d : Nat → Prop), Represents2 s G x →
      (∀ k, d k ↔ (s k).entries ≠ []) → HRegularProg x G d cs →
      ∃ s', hexecAll s cs = some s' ∧ Represents2 s' (cs.foldl hden G) x := by
    intro cs
    induction cs with
    | nil => exact fun s G d h _ _ => ⟨s, rfl, h⟩
    | cons c cs ih =>
      intro s G d h hd hr
      obtain ⟨s1, h1, h2, h3⟩ := hexec_spec s c G x d h hd hr.1
      obtain ⟨s2, g1, g2⟩ := ih s1 _ _ h2 h3 hr.2
      exact ⟨s2, by rw [hexecAll, h1]; exact g1, g2⟩
  exact gen cs s G _ h (fun _ => Iff.rfl) hr

/-- **C31, `GetVariable`.**  The variable that `GetVariable(i)` extracts has the stored partial derivative as its value
and the polar form of the second derivative with the direction `i` as its gradient: for a twice
differentiable function this is the gradient of the partial derivative. -/
theorem C31_getVariable (h : HVar) (i : Nat) (hi : HasColumn h.entries i) :
    (getVariable h i).value = getSafe h.entries i ∧
    ∀ v, dot (getVariable h i).entries v =
      (quad h.hess (fun j => v j + if j = i then 1 else 0) - quad h.hess v - quad h.hess (fun j => if j = i then 1 else 0)) / 2 := by
  unfold getVariable
  cases hf : h.entries.find? (fun e => decide (e.1 = i)) with
  | none =>
    rw [List.find?_eq_none] at hf
    unfold HasColumn at hi
    obtain ⟨e, he, rfl⟩ := List.mem_map.1 hi
    exact absurd (hf e he) (by simp)
  | some e =>
    have he : e.1 = i := by simpa using List.find?_some hf
    refine ⟨?_, fun v => ?_⟩
    · clear hi he
      simp only
      generalize h.entries = r at hf
      induction r with
      | nil => cases hf
      | cons a r ih =>
        obtain ⟨j, b⟩ := a
        rw [getSafe]
        by_cases hj : j = i
        · rw [List.find?_cons_of_pos (by simpa using hj)] at hf
          rw [if_pos hj, ← Option.some.inj hf]
        · rw [List.find?_cons_of_neg (by simpa using hj)] at hf
          rw [if_neg hj]; exact ih hf
    · simp only
      generalize h.hess = H
      induction H with
      | nil => simp [quad, dot]
      | cons q H ih =>
        have hq : ∀ w, quad (q :: H) w = q.2 * (w (ofLex q.1).1 * w (ofLex q.1).2) + quad H w := fun w => by simp [quad]
        rw [hq, hq, hq, List.filterMap_cons]
        set p := ofLex q.1 with hp
        by_cases h1 : p.1 = i
        · simp only [h1, ↓reduceIte, dot_cons, ih]
          by_cases h2 : i = p.2
          · simp only [← h2, ↓reduceIte]; ring
          · have h2' : ¬ p.2 = i := fun hh => h2 hh.symm
            simp only [h2, h2', ↓reduceIte]; ring
        · by_cases h2 : p.2 = i
          · simp only [h1, h2, ↓reduceIte, dot_cons, ih]; ring
          · simp only [h1, h2, ↓reduceIte, ih]; ring

/-! ### Expressions with wrong second derivatives -/

theorem along_unique {g : ℝ → ℝ} {A B C D : ℝ} (h : Along g A B) (h' : Along g C D) : A = C ∧ B = D := by
  obtain ⟨φ, h1, h2, h3⟩ := h
  obtain ⟨ψ, g1, g2, g3⟩ := h'
  have he : ∀ᶠ t in 𝓝 (0 : ℝ), φ t = ψ t := by
    filter_upwards [h1, g1] with t ht gt
    exact ht.unique gt
  refine ⟨by rw [← h2, ← g2]; exact he.self_of_nhds, ?_⟩
  exact h3.unique (g3.congr_of_eventuallyEq he)

/-- The expression of the unknown `x₀ = 1`. -/
def unknown : Expr := .var 1 (some 0)

theorem sorted_one (c : ℝ) : StrictlySorted ([(0, c)] : Row ℝ) := by simp [StrictlySorted]

theorem along_unknown (G : Nat → (Nat → ℝ) → ℝ) :
    Along (fun t => den G unknown (line (fun _ => 1) (fun _ => 1) t)) 1 0 := along_line _ _ 0

theorem den_unknown (G : Nat → (Nat → ℝ) → ℝ) : den G unknown (line (fun _ => 1) (fun _ => 1) 0) = 1 := by
  simp [unknown, den, line]

/-- `1/x`: the stored second derivative at `x = 1` is -2; it should be 2. -/
theorem C31_reciprocal_fails (s : HStore) (G : Nat → (Nat → ℝ) → ℝ) :
    ∃ J H, hessian s s 1 1 (.recip unknown 1) = some (J, H) ∧ quad H (fun _ => 1) = -2 ∧
      ¬ Second (den G (.recip unknown 1)) (fun _ => 1) J H := by
  obtain ⟨H, m1, m2, m3⟩ := mergeJH_spec (2 * (1 * (1 / 1)) * (1 / 1) * (1 / 1) * (-1)) [(0, (-1 : ℝ))] [(0, (-1 : ℝ))] [(1, [])]
    (sorted_one _) (sorted_one _) (by simp [StrictlySorted]) Iff.rfl
  have hq : quad H (fun _ => 1) = -2 := by rw [m3]; simp [dot, quad]
  refine ⟨scale [(0, -1)] (-1 * (1 * (1 / 1)) * (1 / 1) * (-1)), H, ?_, hq, ?_⟩
  · have hv : value s.low unknown = 1 := rfl
    have hs : (if (-1 * (1 * (1 / 1)) * (1 / 1) : ℝ) < 0 then (-1 : ℝ) else 1) = -1 := by rw [if_pos]; norm_num
    rw [hessian.eq_def]
    simp only [hv, hs]
    have hh : ∀ p q, hessian s s p q unknown = some ([(0, p)], []) := fun _ _ => by simp only [unknown, hessian]
    simp only [hh, m1]
  · intro hS
    have h1 := along_comp (along_unknown G) (fun y => y⁻¹) (fun y => -(y ^ 2)⁻¹) 2
      (by rw [den_unknown]
          filter_upwards [lt_mem_nhds (zero_lt_one)] with y hy
          exact hasDerivAt_inv (ne_of_gt hy))
      (by rw [den_unknown]
          exact (((hasDerivAt_pow 2 (1 : ℝ)).inv (by norm_num)).neg).congr_deriv (by norm_num))
    have h2 : Along (fun t => den G (.recip unknown 1) (line (fun _ => 1) (fun _ => 1) t)) _ _ := hS (fun _ => 1)
    have := (along_unique (along_congr h1 (.of_forall fun t => by simp only [den]; ring)) h2).2
    rw [hq] at this
    norm_num at this

/-- `-exp(x)`: the stored second derivative has the wrong sign. -/
theorem C31_exp_fails (s : HStore) (G : Nat → (Nat → ℝ) → ℝ) :
    ∃ J H, hessian s s 1 1 (.neg (.exp unknown)) = some (J, H) ∧ quad H (fun _ => 1) = Real.exp 1 ∧
      ¬ Second (den G (.neg (.exp unknown))) (fun _ => 1) J H := by
  have hpos := Real.exp_pos 1
  obtain ⟨H, m1, m2, m3⟩ := mergeJH_spec (-1 * Real.exp 1 * (-1)) [(0, (-1 : ℝ))] [(0, (-1 : ℝ))] [(1, [])]
    (sorted_one _) (sorted_one _) (by simp [StrictlySorted]) Iff.rfl
  have hq : quad H (fun _ => 1) = Real.exp 1 := by rw [m3]; simp [dot, quad]
  refine ⟨scale [(0, -1)] (-1 * Real.exp 1 * (-1)), H, ?_, hq, ?_⟩
  · have hv : value s.low unknown = 1 := rfl
    have hs : (if (-1 * Real.exp 1 : ℝ) < 0 then (-1 : ℝ) else 1) = -1 := by rw [if_pos]; linarith
    rw [hessian.eq_def]
    simp only
    rw [hessian.eq_def]
    simp only [hv, hs]
    have hh : ∀ p q, hessian s s p q unknown = some ([(0, p)], []) := fun _ _ => by simp only [unknown, hessian]
    simp only [hh, m1]
  · intro hS
    have h1 := along_comp (along_unknown G) (fun y => -Real.exp y) (fun y => -Real.exp y) (-Real.exp 1)
      (.of_forall fun y => (Real.hasDerivAt_exp y).neg) (by rw [den_unknown]; exact (Real.hasDerivAt_exp 1).neg)
    have h2 : Along (fun t => den G (.neg (.exp unknown)) (line (fun _ => 1) (fun _ => 1) t)) _ _ := hS (fun _ => 1)
    have := (along_unique (along_congr h1 (.of_forall fun t => by simp only [den])) h2).2
    rw [hq] at this
    linarith

/-- `x^2`: the first derivative is not stored. -/
theorem C31_pow_fails (s : HStore) (G : Nat → (Nat → ℝ) → ℝ) :
    ∃ H, hessian s s 1 1 (.powConst unknown 2) = some ([], H) ∧
      ¬ Second (den G (.powConst unknown 2)) (fun _ => 1) [] H := by
  have hh : ∀ p q, hessian s s p q unknown = some ([(0, p)], []) := fun _ _ => by simp only [unknown, hessian]
  obtain ⟨H, m1, m2, m3⟩ := mergeJH_spec
    (1 * (if value s.low unknown ≠ 0 then (if value s.low unknown ≠ 0 then value s.low unknown ^ (2 : ℝ) * 2 / value s.low unknown else 0) * (2 - 1) / value s.low unknown else 0))
    [(0, (1 : ℝ))] [(0, (1 : ℝ))]
    [(1 * (if value s.low unknown ≠ 0 then value s.low unknown ^ (2 : ℝ) * 2 / value s.low unknown else 0), [])]
    (sorted_one _) (sorted_one _) (by simp [StrictlySorted]) Iff.rfl
  refine ⟨H, ?_, ?_⟩
  · rw [hessian.eq_def]
    simp only [hh, m1]
  · intro hS
    have h1 := along_comp (along_unknown G) (fun y => y ^ 2) (fun y => 2 * y) 2
      (.of_forall fun y => (hasDerivAt_pow 2 y).congr_deriv (by norm_num))
      (((hasDerivAt_id _).const_mul 2).congr_deriv (by norm_num))
    have h2 : Along (fun t => den G (.powConst unknown 2) (line (fun _ => 1) (fun _ => 1) t)) _ _ := hS (fun _ => 1)
    have := (along_unique (along_congr h1 (.of_forall fun t => by simp only [den, Real.rpow_two])) h2).1
    rw [den_unknown] at this
    simp [dot] at this

/-- A product with a factor that has no stored derivatives fails: the merge reads the first entry of an empty row. -/
theorem C31_product_fails (s : HStore) (a c : Nat) (hs : ∀ k, StrictlySorted (s k).entries)
    (ha : (s a).entries ≠ []) (hc : (s c).entries = []) :
    hessian s s 1 1 (.mul (.mvar a) (.mvar c)) = none := by
  have hsr : sortRow [] = [] := sortRow_sorted [] (by simp [StrictlySorted])
  simp only [hessian, sortRow_sorted _ (hs _), hc, hsr]
  have : ∀ p q Hs, mergeJH p (scale (s a).entries 1) (scale [] q) Hs = none := by
    intro p q Hs
    unfold mergeJH
    split
    · rw [if_neg]
      simp [scale, ha]
    · rfl
  rw [this]
  cases mergeSortedRows (liveValue s.low s.low (Expr.mvar c) * 1) (scale (s a).entries 1)
    (liveValue s.low s.low (Expr.mvar a) * 1) (scale [] 1) <;> rfl

/-- Non-vacuity: `u = x₀`, `w = x₁` and the program `p = sin(u * w) + u * u; p += exp(w); p *= 3`. -/
example :
    let x : Nat → ℝ := fun k => if k = 0 then 2 else 3
    let s : HStore := fun k => if k = 0 then ⟨2, [(0, 1)], []⟩ else ⟨3, [(1, 1)], []⟩
    let G : Nat → (Nat → ℝ) → ℝ := fun k => if k = 0 then fun y => y 0 else fun y => y 1
    Represents2 s G x ∧
    HRegularProg x G (fun k => (s k).entries ≠ [])
      [.assign 2 (.add (.sin (.mul (.mvar 0) (.mvar 1))) (.mul (.mvar 0) (.mvar 0))), .addAssign 2 (.exp (.mvar 1)),
        .mulConst 2 3] := by
  intro x s G
  refine ⟨fun k => ?_, ?_⟩
  · by_cases hk : k = 0
    · subst hk
      refine ⟨rfl, fun v => ?_, by simp [s, StrictlySorted], by simp [s, StrictlySorted]⟩
      simpa [s, G, dot, quad, Along] using along_line x v 0
    · refine ⟨by simp [s, G, x, hk], fun v => ?_, by simp [s, hk, StrictlySorted], by simp [s, hk, StrictlySorted]⟩
      simpa [s, G, dot, quad, hk, Along] using along_line x v 1
  · simp [HRegularProg, HRegularStmt, Regular2, MulOperand, HasDeriv, s]

end Verif.Autodiff
