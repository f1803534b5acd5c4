import Verif.Autodiff.RowLemmas
import Mathlib.Data.Real.Basic
import Mathlib.Tactic.NormNum

/-!
# C29, C30: automatic differentiation of first order
-/

namespace Verif.Autodiff

open Verif.Sparse

theorem ctx_of (s : Store) (G : Nat → (Nat → ℝ) → ℝ) (x : Nat → ℝ) (h : Represents s G x) : Ctx s s G x :=
  ⟨fun k => (h k).1, fun k => (h k).2.1, fun _ => rfl⟩

/-- **C29, value.** -/
theorem C29_value (s : Store) (G : Nat → (Nat → ℝ) → ℝ) (x : Nat → ℝ) (h : Represents s G x) (e : Expr)
    (hr : Regular G x e) : value s e = den G e x := value_eq s s G x (ctx_of s G x h) e hr

theorem grad_of (s : Store) (G : Nat → (Nat → ℝ) → ℝ) (x : Nat → ℝ) (h : Represents s G x) (e : Expr)
    (hr : Regular G x e) (mult : ℝ) (g : (Nat → ℝ) → ℝ) (r row : Row ℝ) (hg : HasGradient g x r)
    (hrow : ∀ v, dot row v = dot r v + dot (flat (contrib s s mult e)) v) :
    HasGradient (fun y => g y + mult * den G e y) x row := by
  intro γ v t0 h0 hγ
  obtain ⟨D, hD, hc⟩ := contrib_spec s s G x (ctx_of s G x h) e hr (fun _ _ => rfl) γ v t0 h0 hγ
  rw [hrow, hc]
  exact (hg γ v t0 h0 hγ).add (hD.const_mul mult)

theorem grad_zero (x : Nat → ℝ) : HasGradient (fun _ => 0) x [] :=
  fun _ _ _ _ _ => by rw [dot_nil]; exact hasDerivAt_const _ _

/-- **C29, gathering.**  `GetJacobian(mult, r)` called with a row `r` that is the gradient of some function `g` makes
`r` the gradient of `g + mult * e`, with one entry per unknown; through the accumulator of an `Automatizator` too,
whatever its interval, and this leaves the accumulator empty. -/
theorem C29_gather_partial (s : Store) (G : Nat → (Nat → ℝ) → ℝ) (x : Nat → ℝ) (h : Represents s G x) (e : Expr)
    (hr : Regular G x e) (mult : ℝ) (g : (Nat → ℝ) → ℝ) (r : Row ℝ) (hd : Distinct r) (hg : HasGradient g x r) :
    (HasGradient (fun y => g y + mult * den G e y) x (jacRow s s mult e r) ∧ Distinct (jacRow s s mult e r)) ∧
    ∀ b e', b ≤ e' → e' < EOL →
      ∃ row, fromGetJacobian s s e mult r (Merger.init b e' false) = some (row, Merger.init b e' false) ∧
        HasGradient (fun y => g y + mult * den G e y) x row ∧ Distinct row := by
  obtain ⟨h1, h2⟩ := applyAll_spec (contrib s s mult e) r hd
  refine ⟨⟨grad_of s G x h e hr mult g r _ hg h2, h1⟩, fun b e' hb he => ?_⟩
  obtain ⟨row, g1, g2, g3⟩ := fromGet_spec b e' ⟨hb, he⟩ s s e r mult
  exact ⟨row, g1, grad_of s G x h e hr mult g r _ hg (fun v => by rw [g3]; ring), g2⟩

/-- **C29.**  A variable constructed from an expression at a regular point holds the gradient of the function that the
expression denotes, with one entry per unknown, with and without an `Automatizator`. -/
theorem C29_gradient_partial (s : Store) (G : Nat → (Nat → ℝ) → ℝ) (x : Nat → ℝ) (h : Represents s G x) (e : Expr)
    (hr : Regular G x e) :
    (HasGradient (den G e) x (jacRow s s 1 e []) ∧ Distinct (jacRow s s 1 e [])) ∧
    ∀ b e', b ≤ e' → e' < EOL →
      ∃ row, fromBasicExpression s s e (Merger.init b e' false) = some (row, Merger.init b e' false) ∧
        HasGradient (den G e) x row ∧ Distinct row := by
  have hf : (fun y => (0 : ℝ) + 1 * den G e y) = den G e := by funext y; ring
  obtain ⟨h1, h2⟩ := applyAll_spec (contrib s s 1 e) [] (by simp [Distinct])
  refine ⟨⟨?_, h1⟩, fun b e' hb he => ?_⟩
  · rw [← hf]; exact grad_of s G x h e hr 1 _ [] _ (grad_zero x) h2
  · obtain ⟨row, g1, g2, g3⟩ := fromBasic_spec b e' ⟨hb, he⟩ s s e
    refine ⟨row, g1, ?_, g2⟩
    rw [← hf]; exact grad_of s G x h e hr 1 _ [] _ (grad_zero x) (fun v => by rw [g3]; simp)

/-- **C29, entries.**  What a gradient row with one entry per unknown says of each unknown: the entry, or zero if
there is none, is the partial derivative. -/
theorem C29_partial_derivatives (g : (Nat → ℝ) → ℝ) (x : Nat → ℝ) (r : Row ℝ) (h : HasGradient g x r)
    (hd : Distinct r) (i : Nat) :
    HasDerivAt (fun t => g (Function.update x i t)) (getSafe r i) (x i) := by
  have hdot : ∀ q : Row ℝ, dot q (fun j => if j = i then 1 else 0) = colVal q i := by
    intro q
    induction q with
    | nil => simp
    | cons e q ih => obtain ⟨j, a⟩ := e; rw [dot_cons, colVal_cons, ih]; simp
  have := h (fun t => Function.update x i t) (fun j => if j = i then 1 else 0) (x i)
    (Function.update_eq_self i x) (fun j => by
      by_cases hj : j = i
      · subst hj; simp only [Function.update_self, ↓reduceIte]; exact hasDerivAt_id _
      · simp only [Function.update_of_ne hj, hj, ↓reduceIte]; exact hasDerivAt_const _ _)
  rw [hdot, ← getSafe_colVal r hd] at this
  exact this

/-- The power with exponent one at zero: the derivative that the code stores is zero. -/
theorem C29_pow_fails :
    jacRow (fun _ => ⟨0, []⟩) (fun _ => ⟨0, []⟩) 1 (.powConst (.var 0 (some 3)) 1) [] = [] ∧
    HasDerivAt (fun t => den (fun _ _ => 0) (.powConst (.var 0 (some 3)) 1) (Function.update (fun _ => 0) 3 t)) 1 0 := by
  constructor
  · simp [jacRow, contrib, value]
  · simp only [den, Function.update_self, Real.rpow_one]
    exact hasDerivAt_id _

/-! ### Programs -/

theorem represents_set (s : Store) (G : Nat → (Nat → ℝ) → ℝ) (x : Nat → ℝ) (h : Represents s G x) (k : Nat)
    (g : (Nat → ℝ) → ℝ) (v : ℝ) (r : Row ℝ) (hv : v = g x) (hg : HasGradient g x r) (hd : Distinct r) :
    Represents (s.set k ⟨v, r⟩) (setFun G k g) x := by
  intro j
  unfold Store.set setFun
  by_cases hj : j = k
  · simp only [hj, ↓reduceIte]; exact ⟨hv, hg, hd⟩
  · simp only [hj, ↓reduceIte]; exact h j

theorem ctx_setValue (s : Store) (G : Nat → (Nat → ℝ) → ℝ) (x : Nat → ℝ) (h : Represents s G x) (k : Nat) (v : ℝ) :
    Ctx s (s.setValue k v) G x :=
  ⟨fun k => (h k).1, fun k => (h k).2.1, fun j => by
    unfold Store.setValue Store.set
    by_cases hj : j = k <;> simp [hj]⟩

theorem value_setValue (s : Store) (k : Nat) (v : ℝ) (e : Expr) (hk : ¬ MulOperand k e) (j : Nat)
    (hj : MulOperand j e) : (s.setValue k v j).value = (s j).value := by
  unfold Store.setValue Store.set
  have : j ≠ k := fun h => hk (h ▸ hj)
  simp [this]

theorem assignFrom_spec (st : State) (s1 : Store) (k : Nat) (e : Expr) (G : Nat → (Nat → ℝ) → ℝ) (x : Nat → ℝ)
    (h : Represents st.store G x) (hm : ∀ m, st.merger = some m → ∃ b e', b ≤ e' ∧ e' < EOL ∧ m = Merger.init b e' false)
    (hr : Regular G x e) (hc : Ctx st.store s1 G x)
    (hk : ∀ k, MulOperand k e → (s1 k).value = (st.store k).value) :
    ∃ st', assignFrom st s1 k e = some st' ∧ Represents st'.store (setFun G k (den G e)) x ∧
      st'.merger = st.merger := by
  have hg : ∀ row : Row ℝ, (∀ v, dot row v = dot (flat (contrib st.store s1 1 e)) v) → HasGradient (den G e) x row := by
    intro row hrow γ v t0 h0 hγ
    obtain ⟨D, hD, hcc⟩ := contrib_spec st.store s1 G x hc e hr hk γ v t0 h0 hγ
    rw [hrow, hcc, one_mul]; exact hD
  have hv := value_eq _ _ _ _ hc e hr
  unfold assignFrom
  cases hmm : st.merger with
  | none =>
    obtain ⟨h1, h2⟩ := applyAll_spec (contrib st.store s1 1 e) [] (by simp [Distinct])
    refine ⟨_, rfl, represents_set _ _ _ h _ _ _ _ hv (hg _ (fun v => ?_)) h1, rfl⟩
    rw [jacRow, h2]; simp
  | some m =>
    obtain ⟨b, e', hb, he, rfl⟩ := hm m hmm
    obtain ⟨row, g1, g2, g3⟩ := fromBasic_spec b e' ⟨hb, he⟩ st.store s1 e
    simp only [g1]
    exact ⟨_, rfl, represents_set _ _ _ h _ _ _ _ hv (hg _ g3) g2, rfl⟩

theorem distinct_scale (r : Row ℝ) (c : ℝ) (h : Distinct r) : Distinct (r.map fun e => (e.1, e.2 * c)) := by
  unfold Distinct at h ⊢
  rw [List.map_map]; exact h

theorem combine_spec (st : State) (s1 : Store) (k : Nat) (scale : Bool) (p q : ℝ) (hp : scale = false → p = 1)
    (e : Expr) (v : ℝ) (G : Nat → (Nat → ℝ) → ℝ) (x : Nat → ℝ)
    (h : Represents st.store G x) (hm : ∀ m, st.merger = some m → ∃ b e', b ≤ e' ∧ e' < EOL ∧ m = Merger.init b e' false)
    (hr : Regular G x e) (hc : Ctx st.store s1 G x)
    (hk : ∀ k, MulOperand k e → (s1 k).value = (st.store k).value)
    (g : (Nat → ℝ) → ℝ) (hv : v = g x)
    (hg : ∀ (γ : ℝ → Nat → ℝ) (A B t0 : ℝ), γ t0 = x → HasDerivAt (fun t => G k (γ t)) A t0 →
      HasDerivAt (fun t => den G e (γ t)) B t0 → HasDerivAt (fun t => g (γ t)) (p * A + q * B) t0) :
    ∃ st', combine st s1 k scale p q e v = some st' ∧ Represents st'.store (setFun G k g) x ∧
      st'.merger = st.merger := by
  have hgg : ∀ row : Row ℝ, (∀ v, dot row v = p * dot (st.store k).entries v + dot (flat (contrib st.store s1 q e)) v) →
      HasGradient g x row := by
    intro row hrow γ v t0 h0 hγ
    obtain ⟨D, hD, hcc⟩ := contrib_spec st.store s1 G x hc e hr hk γ v t0 h0 hγ
    rw [hrow, hcc]
    exact hg γ _ _ t0 h0 ((h k).2.1 γ v t0 h0 hγ) hD
  have hdk := (h k).2.2
  unfold combine
  rw [hc.ent]
  cases hmm : st.merger with
  | none =>
    have hdt : Distinct (if scale then (st.store k).entries.map fun e => (e.1, e.2 * p) else (st.store k).entries) := by
      split
      · exact distinct_scale _ _ hdk
      · exact hdk
    obtain ⟨h1, h2⟩ := applyAll_spec (contrib st.store s1 q e) _ hdt
    refine ⟨_, rfl, represents_set _ _ _ h _ _ _ _ hv (hgg _ (fun v => ?_)) h1, rfl⟩
    rw [jacRow, h2]
    cases scale with
    | true => simp only [↓reduceIte, dot_scale]
    | false => simp only [Bool.false_eq_true, ↓reduceIte, hp rfl, one_mul]
  | some m =>
    obtain ⟨b, e', hb, he, rfl⟩ := hm m hmm
    obtain ⟨row, g1, g2, g3⟩ := addBasic_spec b e' ⟨hb, he⟩ st.store s1 e (st.store k).entries hdk p q
    simp only [g1]
    exact ⟨_, rfl, represents_set _ _ _ h _ _ _ _ hv (hgg _ g3) g2, rfl⟩

theorem exec_spec (st : State) (c : Stmt) (G : Nat → (Nat → ℝ) → ℝ) (x : Nat → ℝ)
    (h : Represents st.store G x) (hm : ∀ m, st.merger = some m → ∃ b e', b ≤ e' ∧ e' < EOL ∧ m = Merger.init b e' false)
    (hr : RegularStmt G x c) :
    ∃ st', exec st c = some st' ∧ Represents st'.store (denStmt G c) x ∧ st'.merger = st.merger := by
  cases c with
  | assign k e => exact assignFrom_spec st _ k e G x h hm hr (ctx_of _ _ _ h) (fun _ _ => rfl)
  | assignRef k e =>
    exact assignFrom_spec st _ k e G x h hm hr.1 (ctx_setValue _ _ _ h _ _) (value_setValue _ _ _ _ hr.2)
  | assignConst k c =>
    exact ⟨_, rfl, represents_set _ _ _ h _ _ _ _ rfl
      (fun _ _ _ _ _ => by rw [dot_nil]; exact hasDerivAt_const _ _) (by simp [Distinct]), rfl⟩
  | addAssign k e =>
    refine combine_spec st _ k false 1 1 (fun _ => rfl) e _ G x h hm hr.1 (ctx_setValue _ _ _ h _ _)
      (value_setValue _ _ _ _ hr.2) _ (by rw [(h k).1, C29_value _ _ _ h e hr.1]) ?_
    intro γ A B t0 h0 hA hB
    exact (hA.add hB).congr_deriv (by ring)
  | subAssign k e =>
    refine combine_spec st _ k false 1 (-1) (fun _ => rfl) e _ G x h hm hr.1 (ctx_setValue _ _ _ h _ _)
      (value_setValue _ _ _ _ hr.2) _ (by rw [(h k).1, C29_value _ _ _ h e hr.1]) ?_
    intro γ A B t0 h0 hA hB
    exact (hA.sub hB).congr_deriv (by ring)
  | mulAssign k e =>
    refine combine_spec st _ k true _ _ (by simp) e _ G x h hm hr (ctx_of _ _ _ h) (fun _ _ => rfl) _
      (by rw [(h k).1, C29_value _ _ _ h e hr]) ?_
    intro γ A B t0 h0 hA hB
    refine (hA.mul hB).congr_deriv ?_
    rw [(h k).1, C29_value _ _ _ h e hr, h0]; ring
  | divAssign k e =>
    have hne : den G e x ≠ 0 := hr.2.2
    refine combine_spec st _ k true _ _ (by simp) e _ G x h hm hr.1 (ctx_setValue _ _ _ h _ _)
      (value_setValue _ _ _ _ hr.2.1) _ (by rw [(h k).1, C29_value _ _ _ h e hr.1]; ring) ?_
    intro γ A B t0 h0 hA hB
    refine (hA.div hB (by rw [h0]; exact hne)).congr_deriv ?_
    rw [(h k).1, C29_value _ _ _ h e hr.1, h0]
    field_simp
    ring
  | addConst k c =>
    exact ⟨_, rfl, represents_set _ _ _ h _ _ _ _ (by rw [(h k).1])
      (fun γ v t0 h0 hγ => ((h k).2.1 γ v t0 h0 hγ).add_const c) (h k).2.2, rfl⟩
  | subConst k c =>
    exact ⟨_, rfl, represents_set _ _ _ h _ _ _ _ (by rw [(h k).1])
      (fun γ v t0 h0 hγ => ((h k).2.1 γ v t0 h0 hγ).sub_const c) (h k).2.2, rfl⟩
  | mulConst k c =>
    refine ⟨_, rfl, represents_set _ _ _ h _ _ _ _ (by rw [(h k).1])
      (fun γ v t0 h0 hγ => ?_) (distinct_scale _ _ (h k).2.2), rfl⟩
    rw [dot_scale]
    exact (((h k).2.1 γ v t0 h0 hγ).mul_const c).congr_deriv (by ring)
  | divConst k c =>
    have hrow : ((st.store k).entries.map fun e => (e.1, e.2 / c)) =
        (st.store k).entries.map fun e => (e.1, e.2 * c⁻¹) := by simp only [div_eq_mul_inv]
    refine ⟨_, rfl, represents_set _ _ _ h _ _ _ _ (by rw [(h k).1])
      (fun γ v t0 h0 hγ => ?_) (by rw [hrow]; exact distinct_scale _ _ (h k).2.2), rfl⟩
    rw [hrow, dot_scale]
    exact (((h k).2.1 γ v t0 h0 hγ).div_const c).congr_deriv (by ring)

/-- **C30.**  Every program of assignments and compound assignments that is regular at each step (every operation
differentiable where it is used; a variable that is the target of `+=`, `-=`, `/=` or of an assignment through a
reference is not a factor of a product in the same statement) keeps the variables consistent: values, gradients
and one entry per unknown are those of the functions that the statements define.  This holds with and without an
`Automatizator`, whose accumulator is left empty. -/
theorem C30_programs_partial (cs : List Stmt) (st : State) (G : Nat → (Nat → ℝ) → ℝ) (x : Nat → ℝ)
    (h : Represents st.store G x)
    (hm : ∀ m, st.merger = some m → ∃ b e', b ≤ e' ∧ e' < EOL ∧ m = Merger.init b e' false)
    (hr : RegularProg x G cs) :
    ∃ st', execAll st cs = some st' ∧ Represents st'.store (cs.foldl denStmt G) x ∧ st'.merger = st.merger := by
  induction cs generalizing st G with
  | nil => exact ⟨st, rfl, h, rfl⟩
  | cons c cs ih =>
    obtain ⟨st1, h1, h2, h3⟩ := exec_spec st c G x h hm hr.1
    obtain ⟨st2, g1, g2, g3⟩ := ih st1 _ h2 (by rw [h3]; exact hm) hr.2
    exact ⟨st2, by rw [execAll, h1]; exact g1, g2, g3.trans h3⟩

/-- `a += a * b`: the product reads the value of `a` after the addition.  With `a = x₀ = 2`, `b = x₁ = 3` the
stored derivative with respect to `x₁` is 8 instead of 2. -/
theorem C30_self_fails :
    let s : Store := fun k => if k = 0 then ⟨2, [(0, 1)]⟩ else ⟨3, [(1, 1)]⟩
    let G : Nat → (Nat → ℝ) → ℝ := fun k => if k = 0 then fun y => y 0 else fun y => y 1
    let x : Nat → ℝ := fun k => if k = 0 then 2 else 3
    Represents s G x ∧
    (∃ st', exec ⟨s, none⟩ (.addAssign 0 (.mul (.mvar 0) (.mvar 1))) = some st' ∧
      (st'.store 0).value = 8 ∧ (st'.store 0).entries = [(0, 4), (1, 8)]) ∧
    HasDerivAt (fun t => (denStmt G (.addAssign 0 (.mul (.mvar 0) (.mvar 1)))) 0 (Function.update x 1 t)) 2 (x 1) := by
  intro s G x
  refine ⟨?_, ⟨_, rfl, ?_, ?_⟩, ?_⟩
  · intro k
    by_cases hk : k = 0
    · subst hk
      refine ⟨rfl, ?_, by simp [s, Distinct]⟩
      intro γ v t0 h0 hγ
      simpa [s, G, dot] using hγ 0
    · refine ⟨by simp [s, G, x, hk], ?_, by simp [s, hk, Distinct]⟩
      intro γ v t0 h0 hγ
      simpa [s, G, dot, hk] using hγ 1
  · simp [Store.set, s, value]; norm_num
  · simp [Store.set, Store.setValue, s, value, jacRow, contrib, liveValue, applyRow, access]; norm_num
  · have : (fun t => (denStmt G (.addAssign 0 (.mul (.mvar 0) (.mvar 1)))) 0 (Function.update x 1 t)) =
        fun t => 2 + 2 * t := by
      funext t
      simp [denStmt, setFun, den, G, x]
    rw [this]
    exact (((hasDerivAt_id (x 1)).const_mul 2).const_add 2).congr_deriv (by ring)

/-- Non-vacuity of C29 and C30: a program with two variables, a quotient, a root and a condition. -/
example :
    let x : Nat → ℝ := fun k => if k = 0 then 4 else 3
    let s : Store := fun k => if k = 0 then ⟨4, [(0, 1)]⟩ else ⟨3, [(1, 1)]⟩
    let G : Nat → (Nat → ℝ) → ℝ := fun k => if k = 0 then fun y => y 0 else fun y => y 1
    Represents s G x ∧
    RegularProg x G [.mulAssign 0 (.sqrt (.mvar 0)), .divAssign 0 (.add (.mvar 1) (.mul (.mvar 1) (.var 4 (some 0)))),
      .assign 2 (.cond (.constSub (.mvar 1) 5) (.powConst (.mvar 0) 2) (.log (.mvar 0)))] := by
  intro x s G
  refine ⟨?_, ?_⟩
  · intro k
    by_cases hk : k = 0
    · subst hk
      refine ⟨rfl, ?_, by simp [s, Distinct]⟩
      intro γ v t0 h0 hγ
      simpa [s, G, dot] using hγ 0
    · refine ⟨by simp [s, G, x, hk], ?_, by simp [s, hk, Distinct]⟩
      intro γ v t0 h0 hγ
      simpa [s, G, dot, hk] using hγ 1
  · simp only [RegularProg, RegularStmt, Regular, MulOperand, den, denStmt, setFun, G, x]
    norm_num
    intro h; cases h

end Verif.Autodiff
