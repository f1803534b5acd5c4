import Verif.Dynamic.Model
import Verif.Autodiff.Props

/-! # Dynamic variables: one formula, every element (C139) -/

namespace Verif.Dynamic

open Verif.Autodiff Verif.Sparse

/-! ## specification -/

/-- The function of the unknowns that the formula means on an element; `G k` is the function that the stored variable
`k` stands for. -/
noncomputable def meaning {E : Type} (env : Env E) (G : Nat → (Nat → ℝ) → ℝ) (e : E) : Dyn E → (Nat → ℝ) → ℝ
  | .unknown index val, x =>
    match index e with
    | none => val e
    | some i => x i
  | .const c, _ => c
  | .static_ val, _ => val e
  | .stored var, x => G (var e) x
  | .condition c l r, x => if 0 ≤ meaning env G e c x then meaning env G e l x else meaning env G e r x
  | .neg a, x => -meaning env G e a x
  | .pos a, x => meaning env G e a x
  | .fabs a, x => |meaning env G e a x|
  | .exp a, x => Real.exp (meaning env G e a x)
  | .log a, x => Real.log (meaning env G e a x)
  | .sin a, x => Real.sin (meaning env G e a x)
  | .cos a, x => Real.cos (meaning env G e a x)
  | .sqrt a, x => Real.sqrt (meaning env G e a x)
  | .variation a _, x => meaning env G e a x
  | .add l r, x => meaning env G e l x + meaning env G e r x
  | .sub l r, x => meaning env G e l x - meaning env G e r x
  | .mul l r, x => meaning env G e l x * meaning env G e r x
  | .div l r, x => meaning env G e l x / meaning env G e r x
  | .pow l r, x => meaning env G e l x ^ meaning env G e r x
  | .powConst a c, x => meaning env G e a x ^ c
  | .constMul c a, x => c * meaning env G e a x
  | .mulConst a c, x => meaning env G e a x * c
  | .constDiv c a, x => c / meaning env G e a x
  | .divConst a c, x => meaning env G e a x / c
  | .constAdd c a, x => c + meaning env G e a x
  | .addConst a c, x => meaning env G e a x + c
  | .constSub c a, x => c - meaning env G e a x
  | .subConst a c, x => meaning env G e a x - c
  | .table a f _, x => f (meaning env G e a x)
  | .etypeBranch types a b, x =>
    if env.elementType e &&& types ≠ 0 then meaning env G e a x else meaning env G e b x
  | .markerBranch marker a b, x => if env.marked marker e then meaning env G e a x else meaning env G e b x

/-- On the element the formula is defined and differentiable at `x`, and unknowns carry the values of `x`. Only the
branch that is used is asked for. -/
def RegularAt {E : Type} (env : Env E) (G : Nat → (Nat → ℝ) → ℝ) (e : E) (x : Nat → ℝ) : Dyn E → Prop
  | .unknown index val => ∀ i, index e = some i → val e = x i
  | .const _ => True
  | .static_ _ => True
  | .stored _ => True
  | .condition c l r => meaning env G e c x ≠ 0 ∧ RegularAt env G e x c ∧
      (0 ≤ meaning env G e c x → RegularAt env G e x l) ∧ (meaning env G e c x < 0 → RegularAt env G e x r)
  | .neg a => RegularAt env G e x a
  | .pos a => RegularAt env G e x a
  | .fabs a => meaning env G e a x ≠ 0 ∧ RegularAt env G e x a
  | .exp a => RegularAt env G e x a
  | .log a => 0 < meaning env G e a x ∧ RegularAt env G e x a
  | .sin a => RegularAt env G e x a
  | .cos a => RegularAt env G e x a
  | .sqrt a => 0 < meaning env G e a x ∧ RegularAt env G e x a
  | .variation a m => m = 1 ∧ RegularAt env G e x a
  | .add l r => RegularAt env G e x l ∧ RegularAt env G e x r
  | .sub l r => RegularAt env G e x l ∧ RegularAt env G e x r
  | .mul l r => RegularAt env G e x l ∧ RegularAt env G e x r
  | .div l r => meaning env G e r x ≠ 0 ∧ RegularAt env G e x l ∧ RegularAt env G e x r
  | .pow l r => 0 < meaning env G e l x ∧ RegularAt env G e x l ∧ RegularAt env G e x r
  | .powConst a c => (0 < meaning env G e a x ∨ (meaning env G e a x ≠ 0 ∧ ∃ n : ℤ, c = n) ∨ ∃ n : ℕ, n ≠ 1 ∧ c = n) ∧
      RegularAt env G e x a
  | .constMul _ a => RegularAt env G e x a
  | .mulConst a _ => RegularAt env G e x a
  | .constDiv _ a => meaning env G e a x ≠ 0 ∧ RegularAt env G e x a
  | .divConst a c => c ≠ 0 ∧ RegularAt env G e x a
  | .constAdd _ a => RegularAt env G e x a
  | .addConst a _ => RegularAt env G e x a
  | .constSub _ a => RegularAt env G e x a
  | .subConst a _ => RegularAt env G e x a
  | .table a f f' => HasDerivAt f (f' (meaning env G e a x)) (meaning env G e a x) ∧ RegularAt env G e x a
  | .etypeBranch types a b => if env.elementType e &&& types ≠ 0 then RegularAt env G e x a else RegularAt env G e x b
  | .markerBranch marker a b => if env.marked marker e then RegularAt env G e x a else RegularAt env G e x b

/-! ## helpers -/

theorem den_build {E : Type} (env : Env E) (G : Nat → (Nat → ℝ) → ℝ) (e : E) (d : Dyn E) (x : Nat → ℝ) :
    den G (build env e d) x = meaning env G e d x := by
  induction d with
  | unknown index val =>
    simp only [build, meaning]
    cases index e <;> rfl
  | etypeBranch types a b iha ihb =>
    simp only [build, meaning]
    by_cases c : env.elementType e &&& types ≠ 0
    · rw [if_pos c, if_pos c, iha]
    · rw [if_neg c, if_neg c, ihb]
  | markerBranch marker a b iha ihb =>
    simp only [build, meaning]
    by_cases c : env.marked marker e = true
    · rw [if_pos c, if_pos c, iha]
    · rw [if_neg c, if_neg c, ihb]
  | mulConst a c ih => simp only [build, meaning, den, ih, mul_comm]
  | constAdd c a ih => simp only [build, meaning, den, ih, add_comm]
  | subConst a c ih => simp only [build, meaning, den, ih, sub_eq_add_neg]
  | _ => simp only [build, meaning, den, *, ge_iff_le]

theorem regular_build {E : Type} (env : Env E) (G : Nat → (Nat → ℝ) → ℝ) (e : E) (d : Dyn E) (x : Nat → ℝ)
    (h : RegularAt env G e x d) : Regular G x (build env e d) := by
  induction d with
  | unknown index val =>
    simp only [build]
    simp only [RegularAt] at h
    cases hi : index e with
    | none => trivial
    | some i => exact h i hi
  | etypeBranch types a b iha ihb =>
    simp only [build]
    simp only [RegularAt] at h
    by_cases c : env.elementType e &&& types ≠ 0
    · rw [if_pos c] at h ⊢; exact iha h
    · rw [if_neg c] at h ⊢; exact ihb h
  | markerBranch marker a b iha ihb =>
    simp only [build]
    simp only [RegularAt] at h
    by_cases c : env.marked marker e = true
    · rw [if_pos c] at h ⊢; exact iha h
    · rw [if_neg c] at h ⊢; exact ihb h
  | condition c l r ihc ihl ihr =>
    simp only [build, Regular, den_build]
    simp only [RegularAt] at h
    exact ⟨h.1, ihc h.2.1, fun k => ihl (h.2.2.1 k), fun k => ihr (h.2.2.2 k)⟩
  | const c => trivial
  | static_ val => trivial
  | stored var => trivial
  | fabs a ih => simp only [build, Regular, den_build]; exact ⟨h.1, ih h.2⟩
  | log a ih => simp only [build, Regular, den_build]; exact ⟨h.1, ih h.2⟩
  | sqrt a ih => simp only [build, Regular, den_build]; exact ⟨h.1, ih h.2⟩
  | variation a m ih => simp only [build, Regular]; exact ⟨h.1, ih h.2⟩
  | add l r ihl ihr => simp only [build, Regular]; exact ⟨ihl h.1, ihr h.2⟩
  | sub l r ihl ihr => simp only [build, Regular]; exact ⟨ihl h.1, ihr h.2⟩
  | mul l r ihl ihr => simp only [build, Regular]; exact ⟨ihl h.1, ihr h.2⟩
  | div l r ihl ihr => simp only [build, Regular, den_build]; exact ⟨h.1, ihl h.2.1, ihr h.2.2⟩
  | pow l r ihl ihr => simp only [build, Regular, den_build]; exact ⟨h.1, ihl h.2.1, ihr h.2.2⟩
  | powConst a c ih => simp only [build, Regular, den_build]; exact ⟨h.1, ih h.2⟩
  | constDiv c a ih => simp only [build, Regular, den_build]; exact ⟨h.1, ih h.2⟩
  | divConst a c ih => simp only [build, Regular]; exact ⟨h.1, ih h.2⟩
  | table a f f' ih => simp only [build, Regular, den_build]; exact ⟨h.1, ih h.2⟩
  | neg a ih => exact ih h
  | pos a ih => exact ih h
  | exp a ih => exact ih h
  | sin a ih => exact ih h
  | cos a ih => exact ih h
  | constMul c a ih => exact ih h
  | mulConst a c ih => exact ih h
  | constAdd c a ih => exact ih h
  | addConst a c ih => exact ih h
  | constSub c a ih => exact ih h
  | subConst a c ih => exact ih h

/-! ## C139 -/

/-- On every element where the formula is regular, a dynamic variable has the value of the formula there, and the
variation it reports is the gradient of the formula with respect to the unknowns, one entry per unknown, with and
without a merger. -/
theorem C139_formula_partial {E : Type} (env : Env E) (s : Store) (G : Nat → (Nat → ℝ) → ℝ) (x : Nat → ℝ)
    (h : Represents s G x) (d : Dyn E) (e : E) (hr : RegularAt env G e x d) :
    valueAt env s d e = meaning env G e d x ∧
    HasGradient (meaning env G e d) x (variationAt env s d e) ∧ Distinct (variationAt env s d e) ∧
    ∀ b e', b ≤ e' → e' < EOL →
      ∃ row, fromBasicExpression s s (build env e d) (Merger.init b e' false) = some (row, Merger.init b e' false) ∧
        HasGradient (meaning env G e d) x row ∧ Distinct row := by
  have hb := regular_build env G e d x hr
  have hd : den G (build env e d) = meaning env G e d := funext (den_build env G e d)
  obtain ⟨⟨g1, g2⟩, g3⟩ := C29_gradient_partial s G x h (build env e d) hb
  rw [hd] at g1
  simp only [hd] at g3
  exact ⟨by rw [← hd]; exact C29_value s G x h (build env e d) hb, g1, g2, g3⟩

/-- Elements on which the unknown of an entry is not valid contribute its value and no derivatives. -/
theorem C139_inactive {E : Type} (env : Env E) (s : Store) (index : E → Option Nat) (val : E → ℝ) (e : E)
    (h : index e = none) :
    valueAt env s (.unknown index val) e = val e ∧ variationAt env s (.unknown index val) e = [] := by
  simp [valueAt, variationAt, build, h, value, jacRow, contrib]

/-- elements 0, 1, 2; the unknown lives on 0 and 1 -/
def demoIndex : Nat → Option Nat := fun e => if e < 2 then some e else none
def demoEnv : Env Nat := ⟨fun e => 1 <<< e, fun _ e => e == 2⟩
noncomputable def demoDyn : Dyn Nat := .etypeBranch 3 (.constSub 1 (.exp (.unknown demoIndex fun e => e)))
  (.constDiv 2 (.markerBranch 7 (.static_ fun e => e) (.unknown demoIndex fun e => e)))

example : ∀ e < 3, RegularAt demoEnv (fun _ _ => 0) e (fun i => i) demoDyn := by
  intro e he
  have : e = 0 ∨ e = 1 ∨ e = 2 := by omega
  rcases this with c | c | c <;> subst c <;> simp [demoDyn, RegularAt, demoEnv, demoIndex, meaning]

end Verif.Dynamic
