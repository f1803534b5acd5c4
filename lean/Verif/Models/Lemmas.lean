import Verif.Models.Model
import Mathlib.Data.List.Nodup
import Mathlib.Data.List.Basic
import Mathlib.Order.Defs.LinearOrder
/-
Histories of the tables of `Model`.
-/

namespace Verif.Models

/-- What a call adds: kind, name and object. -/
def Op.adds : Op → Option (Kind × String × Nat)
  | .add k name p => some (k, name, p)
  | .addFirst name p => some (.entry, name, p)
  | .addAfter name p _ => some (.entry, name, p)
  | _ => none

/-- All objects added by a history, in the order of the calls. -/
def added (ops : List Op) : List (Kind × String × Nat) := ops.filterMap Op.adds

/-- Names and objects of one kind. -/
def addedOf (k : Kind) (ops : List Op) : List (String × Nat) :=
  (added ops).filterMap fun e => if e.1 = k then some e.2 else none

/-- The call is about a coupling term. -/
def Op.isCoupling : Op → Bool
  | .addCoupling _ _ _ => true
  | _ => false

/-- What the call says about the submodel. -/
def Op.toggles (name : String) : Op → Option Bool
  | .setSub n b => if n = name then some b else none
  | _ => none

/-- The last call of `ActivateSubModel` or `DeactivateSubModel` for the name. -/
def lastToggle (name : String) (ops : List Op) : Option Bool :=
  (ops.filterMap (Op.toggles name)).getLast?

theorem find_iff {α : Type} {l : List (String × α)} (h : (l.map (·.1)).Nodup) (n : String) (p : α) :
    find l n = some p ↔ (n, p) ∈ l := by
  induction l with
  | nil => simp [find]
  | cons e l ih =>
    simp only [List.map_cons, List.nodup_cons] at h
    rw [find]
    by_cases he : e.1 = n
    · rw [if_pos he]
      constructor
      · intro hp
        have : e = (n, p) := by rw [← he, ← Option.some.inj hp]
        simp [this]
      · intro hp
        rcases List.mem_cons.1 hp with e1 | e1
        · rw [← e1]
        · exact absurd (List.mem_map.2 ⟨_, e1, rfl⟩) (by rw [← he] at *; exact h.1)
    · rw [if_neg he, ih h.2]
      constructor
      · intro hp; simp [hp]
      · intro hp
        rcases List.mem_cons.1 hp with e1 | e1
        · exact absurd (by rw [← e1]) he
        · exact e1

theorem find_none {α : Type} {l : List (String × α)} (n : String) :
    find l n = none ↔ n ∉ l.map (·.1) := by
  induction l with
  | nil => simp [find]
  | cons e l ih =>
    rw [find]
    by_cases he : e.1 = n
    · simp [he]
    · rw [if_neg he, ih]
      simp only [List.map_cons, List.mem_cons, not_or]
      exact ⟨fun h => ⟨fun e' => he e'.symm, h⟩, fun h => h.2⟩

theorem insertAfter_perm (x : String × Nat) (a : String) (l : List (String × Nat)) :
    List.Perm (insertAfter x a l) (l ++ [x]) := by
  induction l with
  | nil => exact List.Perm.refl _
  | cons e l ih =>
    rw [insertAfter]
    split
    · exact List.Perm.cons _ (List.perm_append_singleton x l).symm
    · exact List.Perm.cons _ ih

theorem find_setFlag (n : String) (b : Bool) (m : String) (l : List (String × Bool)) :
    find (setFlag n b l) m = if n = m then some b else find l m := by
  induction l with
  | nil => simp [setFlag, find]
  | cons e l ih =>
    rw [setFlag]
    by_cases he : e.1 = n
    · rw [if_pos he]
      simp only [find]
      by_cases hm : n = m
      · rw [if_pos hm, if_pos hm]
      · rw [if_neg hm, if_neg hm, if_neg (by rw [he]; exact hm)]
    · rw [if_neg he]
      simp only [find]
      by_cases hm : e.1 = m
      · rw [if_pos hm, if_pos hm, if_neg (fun h => he (by rw [hm, h]))]
      · rw [if_neg hm, if_neg hm, ih]

/-- Coupling terms added by a history. -/
def addedTerms (ops : List Op) : List Comp := ops.filterMap fun o => match o with
  | .addCoupling _ _ p => some (.term p)
  | _ => none

/-- The tables after a history. -/
structure After (ops : List Op) (s : Reg) : Prop where
  perm : ∀ k, List.Perm (s.list k) (addedOf k ops)
  order : ∀ k, k ≠ .entry → s.list k = addedOf k ops
  nodup : ∀ k, ((s.list k).map (·.1)).Nodup
  terms : List.Perm (terms s) (addedTerms ops)
  initialized : s.initialized = false
  toggle : ∀ n, find s.activeSub n = lastToggle n ops

theorem addedOf_snoc (k : Kind) (ops : List Op) (o : Op) : addedOf k (ops ++ [o]) =
    addedOf k ops ++ (match o.adds with
      | some e => if e.1 = k then [e.2] else []
      | none => []) := by
  unfold addedOf added
  rw [List.filterMap_append, List.filterMap_append]
  congr 1
  cases h : o.adds with
  | none => simp [h]
  | some e =>
    by_cases he : e.1 = k <;> simp [h, he]

theorem lastToggle_snoc (n : String) (ops : List Op) (o : Op) : lastToggle n (ops ++ [o]) =
    (match o.toggles n with
      | some b => some b
      | none => lastToggle n ops) := by
  unfold lastToggle
  rw [List.filterMap_append]
  cases h : o.toggles n with
  | none => simp [h]
  | some b => simp [h]

theorem addedTerms_same (ops : List Op) (o : Op) (h : o.isCoupling = false) :
    addedTerms (ops ++ [o]) = addedTerms ops := by
  unfold addedTerms
  rw [List.filterMap_append]
  cases o <;> simp [Op.isCoupling] at h ⊢

theorem after_init : After [] init := by
  refine ⟨?_, ?_, ?_, List.Perm.refl _, rfl, ?_⟩ <;> intros <;>
    simp [init, addedOf, added, find, lastToggle]

theorem allowed_iff {ops : List Op} {s : Reg} (h : After ops s) (k : Kind) (n : String) :
    allowed true s k n = true ↔ n ∉ (addedOf k ops).map (·.1) := by
  unfold allowed get
  simp only [Bool.not_true, Bool.false_or, h.initialized, Bool.not_false, Bool.true_and,
    Option.isNone_iff_eq_none]
  rw [find_none, ((h.perm k).map (·.1)).mem_iff]

theorem after_set {ops : List Op} {s : Reg} (h : After ops s) {o : Op} {k : Kind} {n : String} {p : Nat}
    (ho : o.adds = some (k, n, p)) (ht : ∀ m, o.toggles m = none) (hc : o.isCoupling = false)
    (hn : n ∉ (addedOf k ops).map (·.1)) {l : List (String × Nat)}
    (hl : List.Perm l (s.list k ++ [(n, p)])) (hk : k ≠ .entry → l = s.list k ++ [(n, p)]) :
    After (ops ++ [o]) (setList s k l) := by
  have hs : ∀ j, addedOf j (ops ++ [o]) = if j = k then addedOf k ops ++ [(n, p)] else addedOf j ops := by
    intro j
    rw [addedOf_snoc, ho]
    by_cases hj : j = k
    · simp [hj]
    · have hj' : ¬ k = j := fun e => hj e.symm
      rw [if_neg hj]
      simp [hj']
  refine ⟨?_, ?_, ?_, ?_, h.initialized, ?_⟩
  · intro j
    rw [hs]
    simp only [setList]
    split
    · exact hl.trans ((h.perm k).append_right _)
    · exact h.perm j
  · intro j hj
    rw [hs]
    simp only [setList]
    split
    · rename_i e
      rw [← h.order k (e ▸ hj)]
      exact hk (e ▸ hj)
    · exact h.order j hj
  · intro j
    simp only [setList]
    split
    · rw [(hl.map (·.1)).nodup_iff, List.map_append]
      rw [List.nodup_append]
      refine ⟨h.nodup k, by simp, ?_⟩
      intro a ha b hb
      simp only [List.map_cons, List.map_nil, List.mem_singleton] at hb
      rw [hb]
      intro e
      rw [e] at ha
      exact hn (((h.perm k).map (·.1)).mem_iff.1 ha)
    · exact h.nodup j
  · rw [addedTerms_same _ _ hc]; exact h.terms
  · intro m
    rw [lastToggle_snoc, ht]
    exact h.toggle m

theorem pushTerm_terms (x : String × Nat) (key : Option Nat)
    (l : List (Option Nat × List (String × Nat))) :
    List.Perm ((pushTerm x key l).flatMap fun e => e.2.map fun y => Comp.term y.2)
      ((l.flatMap fun e => e.2.map fun y => Comp.term y.2) ++ [Comp.term x.2]) := by
  induction l with
  | nil => exact List.Perm.refl _
  | cons e l ih =>
    rw [pushTerm]
    split
    · simp only [List.flatMap_cons, List.map_append, List.map_cons, List.map_nil,
        List.append_assoc]
      exact List.Perm.append_left _ (List.perm_append_comm)
    · simp only [List.flatMap_cons, List.append_assoc]
      exact List.Perm.append_left _ ih

/-- A call that gives a new name. -/
theorem step_after {a : Bool} {ops : List Op} {s : Reg} (h : After ops s) (o : Op)
    (hn : ∀ e, o.adds = some e → e.2.1 ∉ (addedOf e.1 ops).map (·.1)) {t : Reg}
    (ht : step a s o = some t) : After (ops ++ [o]) t := by
  cases o with
  | add k n p =>
    simp only [step, add] at ht
    split at ht
    · rw [← Option.some.inj ht]
      exact after_set h rfl (fun _ => rfl) rfl (hn _ rfl) (List.Perm.refl _) (fun _ => rfl)
    · simp at ht
  | addFirst n p =>
    simp only [step, addFirst] at ht
    split at ht
    · rw [← Option.some.inj ht]
      exact after_set h rfl (fun _ => rfl) rfl (hn _ rfl) (List.perm_append_singleton _ _).symm
        (fun e => absurd rfl e)
    · simp at ht
  | addAfter n p b =>
    simp only [step, addAfter] at ht
    split at ht
    · rw [← Option.some.inj ht]
      exact after_set h rfl (fun _ => rfl) rfl (hn _ rfl) (insertAfter_perm _ _ _)
        (fun e => absurd rfl e)
    · simp at ht
  | addCoupling sub n p =>
    have : t = { s with coupling := pushTerm (n, p) (get s .submodel sub) s.coupling } := by
      simp only [step, addCoupling] at ht
      split at ht
      · split at ht
        · simp at ht
        · split at ht
          · exact (Option.some.inj ht).symm
          · simp at ht
      · exact (Option.some.inj ht).symm
    rw [this]
    refine ⟨?_, ?_, h.nodup, ?_, h.initialized, ?_⟩
    · intro k; rw [addedOf_snoc]; simpa [Op.adds] using h.perm k
    · intro k hk; rw [addedOf_snoc]; simpa [Op.adds] using h.order k hk
    · have e : addedTerms (ops ++ [.addCoupling sub n p]) = addedTerms ops ++ [.term p] := by
        simp [addedTerms]
      rw [e]
      exact (pushTerm_terms _ _ _).trans (h.terms.append_right _)
    · intro m
      rw [lastToggle_snoc]
      exact h.toggle m
  | setSub n b =>
    rw [← Option.some.inj ht]
    refine ⟨?_, ?_, h.nodup, ?_, h.initialized, ?_⟩
    · intro k; rw [addedOf_snoc]; simpa [Op.adds, setSub] using h.perm k
    · intro k hk; rw [addedOf_snoc]; simpa [Op.adds, setSub] using h.order k hk
    · rw [addedTerms_same _ _ rfl]; exact h.terms
    · intro m
      rw [lastToggle_snoc]
      simp only [setSub, find_setFlag, Op.toggles, h.toggle m]
      by_cases hm : n = m <;> simp [hm]
  | setEntry n b =>
    rw [← Option.some.inj ht]
    refine ⟨?_, ?_, h.nodup, ?_, h.initialized, ?_⟩
    · intro k; rw [addedOf_snoc]; simpa [Op.adds, setEntry] using h.perm k
    · intro k hk; rw [addedOf_snoc]; simpa [Op.adds, setEntry] using h.order k hk
    · rw [addedTerms_same _ _ rfl]; exact h.terms
    · intro m
      rw [lastToggle_snoc]
      exact h.toggle m

/-- A call of a history with asserts. -/
theorem step_iff {ops : List Op} {s : Reg} (h : After ops s) (hc : s.coupling = []) (o : Op) :
    ((step true s o).isSome ↔ o.isCoupling = false ∧
      ∀ e, o.adds = some e → e.2.1 ∉ (addedOf e.1 ops).map (·.1)) ∧
    ∀ t, step true s o = some t → t.coupling = [] := by
  cases o with
  | add k n p =>
    simp only [step, add, Op.isCoupling, Op.adds, Option.some.injEq, forall_eq', true_and]
    rw [← allowed_iff h k n]
    split <;> simp [*, setList]
  | addFirst n p =>
    simp only [step, addFirst, Op.isCoupling, Op.adds, Option.some.injEq, forall_eq', true_and]
    rw [← allowed_iff h .entry n]
    split <;> simp [*, setList]
  | addAfter n p a =>
    simp only [step, addAfter, Op.isCoupling, Op.adds, Option.some.injEq, forall_eq', true_and]
    rw [← allowed_iff h .entry n]
    split <;> simp [*, setList]
  | addCoupling sub n p =>
    have : step true s (.addCoupling sub n p) = none := by
      simp [step, addCoupling, getCoupling, hc, findTerms]
    rw [this]
    simp [Op.isCoupling]
  | setSub n b => simp [step, Op.isCoupling, Op.adds, setSub, hc]
  | setEntry n b => simp [step, Op.isCoupling, Op.adds, setEntry, hc]

theorem mem_addedOf {k : Kind} {ops : List Op} {x : String × Nat} :
    x ∈ addedOf k ops ↔ (k, x.1, x.2) ∈ added ops := by
  unfold addedOf
  simp only [List.mem_filterMap]
  constructor
  · rintro ⟨e, he, hx⟩
    split at hx
    · rename_i hk
      rw [← Option.some.inj hx, ← hk]; exact he
    · simp at hx
  · intro h
    exact ⟨_, h, by simp⟩

/-- New names one after the other. -/
theorem fresh_cons {ops l : List Op} {o : Op}
    (h2 : ∀ e, o.adds = some e → e.2.1 ∉ (addedOf e.1 ops).map (·.1)) :
    (((added l).map fun e => (e.1, e.2.1)).Nodup ∧
      ∀ e ∈ added l, e.2.1 ∉ (addedOf e.1 (ops ++ [o])).map (·.1)) ↔
    (((added (o :: l)).map fun e => (e.1, e.2.1)).Nodup ∧
      ∀ e ∈ added (o :: l), e.2.1 ∉ (addedOf e.1 ops).map (·.1)) := by
  cases hoa : o.adds with
  | none =>
    have e1 : added (o :: l) = added l := by simp [added, hoa]
    rw [e1]
    have e2 : ∀ k, addedOf k (ops ++ [o]) = addedOf k ops := by
      intro k; rw [addedOf_snoc, hoa]; simp
    simp only [e2]
  | some x =>
    have e1 : added (o :: l) = x :: added l := by simp [added, hoa]
    rw [e1]
    have e2 : ∀ k, addedOf k (ops ++ [o]) = addedOf k ops ++ if x.1 = k then [x.2] else [] := by
      intro k; rw [addedOf_snoc, hoa]
    simp only [e2, List.map_cons, List.nodup_cons, List.mem_cons, forall_eq_or_imp,
      h2 x hoa, not_false_eq_true, true_and, List.map_append, List.mem_append, not_or]
    constructor
    · rintro ⟨g1, g2⟩
      refine ⟨⟨?_, g1⟩, fun e he => (g2 e he).1⟩
      intro hx
      obtain ⟨e, he, hxe⟩ := List.mem_map.1 hx
      simp only [Prod.mk.injEq] at hxe
      have := (g2 e he).2
      rw [if_pos hxe.1.symm] at this
      exact this (by simp [hxe.2])
    · rintro ⟨⟨g0, g1⟩, g2⟩
      refine ⟨g1, fun e he => ⟨g2 e he, ?_⟩⟩
      split
      · rename_i hk
        simp only [List.map_cons, List.map_nil, List.mem_singleton]
        intro hn
        exact g0 (List.mem_map.2 ⟨e, he, by rw [hk, hn]⟩)
      · simp

/-- Histories with new names, with or without asserts. -/
theorem run_after {a : Bool} : ∀ (l : List Op) {ops : List Op} {s t : Reg}, After ops s →
    ((added l).map fun e => (e.1, e.2.1)).Nodup →
    (∀ e ∈ added l, e.2.1 ∉ (addedOf e.1 ops).map (·.1)) →
    run a l s = some t → After (ops ++ l) t := by
  intro l
  induction l with
  | nil => intro ops s t h _ _ ht; rw [← Option.some.inj ht]; simpa using h
  | cons o l ih =>
    intro ops s t h hd hf ht
    rw [run] at ht
    cases ho : step a s o with
    | none => rw [ho] at ht; simp at ht
    | some s1 =>
      rw [ho] at ht
      have h2 : ∀ e, o.adds = some e → e.2.1 ∉ (addedOf e.1 ops).map (·.1) := by
        intro e he
        exact hf e (by simp [added, he])
      obtain ⟨d1, d2⟩ := (fresh_cons h2).2 ⟨hd, hf⟩
      have := ih (step_after h o h2 ho) d1 d2 ht
      simpa using this

theorem run_isSome : ∀ (l : List Op) {ops : List Op} {s : Reg}, After ops s → s.coupling = [] →
    ((run true l s).isSome ↔ (∀ o ∈ l, o.isCoupling = false) ∧
      ((added l).map fun e => (e.1, e.2.1)).Nodup ∧
      ∀ e ∈ added l, e.2.1 ∉ (addedOf e.1 ops).map (·.1)) := by
  intro l
  induction l with
  | nil => intro ops s _ _; simp [run, added]
  | cons o l ih =>
    intro ops s h hc
    rw [run]
    obtain ⟨h2, h1⟩ := step_iff h hc o
    cases ho : step true s o with
    | none =>
      rw [ho] at h2
      simp only [Option.isSome_none, Bool.false_eq_true, false_iff] at h2 ⊢
      rintro ⟨g1, g2, g3⟩
      refine h2 ⟨g1 o (by simp), ?_⟩
      intro e he
      exact g3 e (by simp [added, he])
    | some t =>
      rw [ho] at h2
      simp only [Option.isSome_some, true_iff] at h2
      simp only
      rw [ih (step_after h o h2.2 ho) (h1 t ho)]
      simp only [List.mem_cons, forall_eq_or_imp, h2.1, true_and]
      refine and_congr_right fun _ => ?_
      exact fresh_cons h2.2

end Verif.Models
