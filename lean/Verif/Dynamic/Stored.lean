import Mathlib.Logic.Function.Basic
import Mathlib.Data.List.Basic

/-!
# Stored formulas: model and properties (C140)

Models `stored_variable_expression` of `/repo/Source/Headers/inmost_variable.h` L208-229: an object that owns a copy of
a dynamic variable of any type. Objects and memory cells are numbered; a cell holds a formula.
-/

namespace Verif.Dynamic.Stored

open Function

/-- Objects with their `var` (L210; `none` on the outside: no such object, inside: NULL) and the memory. -/
structure Mem (F : Type) where
  obj : Nat → Option (Option Nat)
  cell : Nat → Option F
  next : Nat

inductive Op (F : Type) where
  /-- L212 -/
  | make (o : Nat)
  /-- L213 -/
  | wrap (o : Nat) (f : F)
  /-- L214 -/
  | copy (o from_ : Nat)
  /-- L215 -/
  | destroy (o : Nat)
  /-- L216 -/
  | assign (o from_ : Nat)
  /-- L217 -/
  | assignVar (o : Nat) (f : F)
  /-- L218-222: any evaluation -/
  | eval (o : Nat)

variable {F : Type}

def Mem.empty : Mem F := ⟨fun _ => none, fun _ => none, 0⟩

/-- `other.var->Copy()`: the formula of an object; `none`: NULL or a deleted cell is dereferenced. -/
def Mem.read (m : Mem F) (o : Nat) : Option F :=
  match m.obj o with
  | some (some p) => m.cell p
  | _ => none

/-- A new cell with `f`, owned by `o`. -/
def Mem.store (m : Mem F) (o : Nat) (f : F) : Mem F :=
  ⟨update m.obj o (some (some m.next)), update m.cell m.next (some f), m.next + 1⟩

/-- One operation; `none`: undefined behaviour. A constructor makes a new object; the operators `=` return a copy of
the object, which the caller drops: the copy reads the new cell, its own cell is made and deleted at once
(left out). -/
def step (m : Mem F) : Op F → Option (Mem F)
  | .make o => if m.obj o = none then some { m with obj := update m.obj o (some none) } else none
  | .wrap o f => if m.obj o = none then some (m.store o f) else none
  | .copy o from_ =>
    if m.obj o = none then
      match m.read from_ with
      | some f => some (m.store o f)
      | none => none
    else none
  | .destroy o =>
    match m.obj o with
    | none => none
    | some none => some { m with obj := update m.obj o none }
    | some (some p) =>
      match m.cell p with
      | none => none
      | some _ => some { m with obj := update m.obj o none, cell := update m.cell p none }
  | .assign o from_ =>
    if m.obj o = none then none
    else
      match m.read from_ with
      | some f => some (m.store o f)
      | none => none
  | .assignVar o f => if m.obj o = none then none else some (m.store o f)
  | .eval o =>
    match m.read o with
    | some _ => some m
    | none => none

def run (m : Mem F) : List (Op F) → Option (Mem F)
  | [] => some m
  | op :: ops =>
    match step m op with
    | some m' => run m' ops
    | none => none

/-! ## specification: objects are values -/

/-- Every object simply has a formula, or is empty. Copying and evaluating need a formula. -/
def vstep (v : Nat → Option (Option F)) : Op F → Option (Nat → Option (Option F))
  | .make o => if v o = none then some (update v o (some none)) else none
  | .wrap o f => if v o = none then some (update v o (some (some f))) else none
  | .copy o from_ =>
    if v o = none then
      match v from_ with
      | some (some f) => some (update v o (some (some f)))
      | _ => none
    else none
  | .destroy o => if v o = none then none else some (update v o none)
  | .assign o from_ =>
    if v o = none then none
    else
      match v from_ with
      | some (some f) => some (update v o (some (some f)))
      | _ => none
  | .assignVar o f => if v o = none then none else some (update v o (some (some f)))
  | .eval o =>
    match v o with
    | some (some _) => some v
    | _ => none

def vrun (v : Nat → Option (Option F)) : List (Op F) → Option (Nat → Option (Option F))
  | [] => some v
  | op :: ops =>
    match vstep v op with
    | some v' => vrun v' ops
    | none => none

/-- What an object of the program shows. -/
def Mem.shows (m : Mem F) (o : Nat) : Option (Option F) :=
  match m.obj o with
  | none => none
  | some none => some none
  | some (some p) => some (m.cell p)

/-- No cell without an owner. -/
def NoLeak (m : Mem F) : Prop := ∀ p, m.cell p ≠ none → ∃ o, m.obj o = some (some p)

/-- No operator `=` is applied to an object that has a formula. -/
def Once (v : Nat → Option (Option F)) : List (Op F) → Prop
  | [] => True
  | op :: ops =>
    (match op with
      | .assign o _ => v o = some none
      | .assignVar o _ => v o = some none
      | _ => True) ∧
    match vstep v op with
    | some v' => Once v' ops
    | none => True

/-! ## helpers -/

structure Inv (m : Mem F) : Prop where
  owned : ∀ o p, m.obj o = some (some p) → m.cell p ≠ none
  fresh : ∀ p, m.cell p ≠ none → p < m.next
  one : ∀ o o' p, m.obj o = some (some p) → m.obj o' = some (some p) → o = o'

theorem shows_none (m : Mem F) (o : Nat) : m.shows o = none ↔ m.obj o = none := by
  unfold Mem.shows
  rcases m.obj o with _ | _ | p <;> simp

theorem read_shows {m : Mem F} (hi : Inv m) (o : Nat) (f : F) : m.read o = some f ↔ m.shows o = some (some f) := by
  unfold Mem.read Mem.shows
  rcases h : m.obj o with _ | _ | p <;> simp

theorem store_inv {m : Mem F} (hi : Inv m) (o : Nat) (f : F) : Inv (m.store o f) := by
  refine ⟨?_, ?_, ?_⟩
  · intro o' p h
    simp only [Mem.store, update_apply] at h ⊢
    by_cases c : o' = o
    · rw [if_pos c] at h
      simp only [Option.some.injEq] at h
      rw [if_pos h.symm]; simp
    · rw [if_neg c] at h
      by_cases c2 : p = m.next
      · rw [if_pos c2]; simp
      · rw [if_neg c2]; exact hi.owned o' p h
  · intro p h
    simp only [Mem.store, update_apply] at h ⊢
    by_cases c2 : p = m.next
    · omega
    · rw [if_neg c2] at h
      have := hi.fresh p h
      omega
  · intro o1 o2 p h1 h2
    simp only [Mem.store, update_apply] at h1 h2
    have hn : ∀ q, m.obj q ≠ some (some m.next) := fun q hq => Nat.lt_irrefl _ (hi.fresh _ (hi.owned q _ hq))
    by_cases c1 : o1 = o <;> by_cases c2 : o2 = o
    · rw [c1, c2]
    · rw [if_pos c1] at h1; rw [if_neg c2] at h2
      simp only [Option.some.injEq] at h1
      rw [← h1] at h2
      exact absurd h2 (hn o2)
    · rw [if_neg c1] at h1; rw [if_pos c2] at h2
      simp only [Option.some.injEq] at h2
      rw [← h2] at h1
      exact absurd h1 (hn o1)
    · rw [if_neg c1] at h1; rw [if_neg c2] at h2
      exact hi.one o1 o2 p h1 h2

theorem store_shows {m : Mem F} (hi : Inv m) (o : Nat) (f : F) :
    (m.store o f).shows = update m.shows o (some (some f)) := by
  funext q
  simp only [Mem.shows, Mem.store, update_apply]
  by_cases c : q = o
  · rw [if_pos c, if_pos c]; simp
  · rw [if_neg c, if_neg c]
    rcases h : m.obj q with _ | _ | p
    · rfl
    · rfl
    · have : p ≠ m.next := fun e => Nat.lt_irrefl _ (e ▸ hi.fresh p (hi.owned q p h))
      simp [this]

theorem store_noleak {m : Mem F} (o : Nat) (f : F) (hn : NoLeak m) (ho : ∀ p, m.obj o ≠ some (some p)) :
    NoLeak (m.store o f) := by
  intro p hp
  simp only [Mem.store, update_apply] at hp ⊢
  by_cases c : p = m.next
  · exact ⟨o, by rw [if_pos rfl, c]⟩
  · rw [if_neg c] at hp
    obtain ⟨q, hq⟩ := hn p hp
    have : q ≠ o := fun e => ho p (e ▸ hq)
    exact ⟨q, by rw [if_neg this]; exact hq⟩

/-- One operation agrees with the specification, keeps the invariant, and leaks only by `=`. -/
theorem step_spec {m : Mem F} (hi : Inv m) (op : Op F) :
    (step m op).map Mem.shows = vstep m.shows op ∧ (∀ m', step m op = some m' → Inv m') := by
  cases op with
  | make o =>
    simp only [step, vstep, shows_none]
    by_cases c : m.obj o = none
    · rw [if_pos c, if_pos c]
      refine ⟨?_, ?_⟩
      · simp only [Option.map_some, Option.some.injEq]
        funext q
        simp only [Mem.shows, update_apply]
        by_cases e : q = o
        · rw [if_pos e, if_pos e]
        · rw [if_neg e, if_neg e]
      · rintro m' h
        simp only [Option.some.injEq] at h
        subst h
        refine ⟨?_, hi.fresh, ?_⟩
        · intro q p h
          simp only [update_apply] at h
          by_cases e : q = o
          · simp [e] at h
          · rw [if_neg e] at h; exact hi.owned q p h
        · intro q r p h1 h2
          simp only [update_apply] at h1 h2
          by_cases e : q = o
          · simp [e] at h1
          · by_cases e2 : r = o
            · simp [e2] at h2
            · rw [if_neg e] at h1; rw [if_neg e2] at h2
              exact hi.one q r p h1 h2
    · rw [if_neg c, if_neg c]
      exact ⟨rfl, by simp⟩
  | wrap o f =>
    simp only [step, vstep, shows_none]
    by_cases c : m.obj o = none
    · rw [if_pos c, if_pos c]
      refine ⟨by simp [store_shows hi], ?_⟩
      rintro m' h
      simp only [Option.some.injEq] at h
      exact h ▸ store_inv hi o f
    · rw [if_neg c, if_neg c]
      exact ⟨rfl, by simp⟩
  | copy o b =>
    simp only [step, vstep, shows_none]
    by_cases c : m.obj o = none
    · rw [if_pos c, if_pos c]
      cases hr : m.read b with
      | some f =>
        rw [(read_shows hi b f).1 hr]
        refine ⟨by simp [store_shows hi], ?_⟩
        rintro m' h
        simp only [Option.some.injEq] at h
        exact h ▸ store_inv hi o f
      | none =>
        refine ⟨?_, by simp⟩
        rcases hs : m.shows b with _ | _ | f
        · rfl
        · rfl
        · rw [(read_shows hi b f).2 hs] at hr; simp at hr
    · rw [if_neg c, if_neg c]
      exact ⟨rfl, by simp⟩
  | assign o b =>
    simp only [step, vstep, shows_none]
    by_cases c : m.obj o = none
    · rw [if_pos c, if_pos c]
      exact ⟨rfl, by simp⟩
    · rw [if_neg c, if_neg c]
      cases hr : m.read b with
      | some f =>
        rw [(read_shows hi b f).1 hr]
        refine ⟨by simp [store_shows hi], ?_⟩
        rintro m' h
        simp only [Option.some.injEq] at h
        exact h ▸ store_inv hi o f
      | none =>
        refine ⟨?_, by simp⟩
        rcases hs : m.shows b with _ | _ | f
        · rfl
        · rfl
        · rw [(read_shows hi b f).2 hs] at hr; simp at hr
  | assignVar o f =>
    simp only [step, vstep, shows_none]
    by_cases c : m.obj o = none
    · rw [if_pos c, if_pos c]
      exact ⟨rfl, by simp⟩
    · rw [if_neg c, if_neg c]
      refine ⟨by simp [store_shows hi], ?_⟩
      rintro m' h
      simp only [Option.some.injEq] at h
      exact h ▸ store_inv hi o f
  | eval o =>
    simp only [step, vstep]
    cases hr : m.read o with
    | some f =>
      rw [(read_shows hi o f).1 hr]
      refine ⟨rfl, ?_⟩
      rintro m' h
      simp only [Option.some.injEq] at h
      exact h ▸ hi
    | none =>
      refine ⟨?_, by simp⟩
      rcases hs : m.shows o with _ | _ | f
      · rfl
      · rfl
      · rw [(read_shows hi o f).2 hs] at hr; simp at hr
  | destroy o =>
    simp only [step, vstep, shows_none]
    rcases ho : m.obj o with _ | _ | p
    · exact ⟨rfl, by simp⟩
    · refine ⟨?_, ?_⟩
      · simp only [reduceCtorEq, if_false, Option.map_some, Option.some.injEq]
        funext q
        simp only [Mem.shows, update_apply]
        by_cases e : q = o
        · rw [if_pos e, if_pos e]
        · rw [if_neg e, if_neg e]
      · rintro m' h
        simp only [Option.some.injEq] at h
        subst h
        refine ⟨?_, hi.fresh, ?_⟩
        · intro q p h
          simp only [update_apply] at h
          by_cases e : q = o
          · simp [e] at h
          · rw [if_neg e] at h; exact hi.owned q p h
        · intro q r p h1 h2
          simp only [update_apply] at h1 h2
          by_cases e : q = o
          · simp [e] at h1
          · by_cases e2 : r = o
            · simp [e2] at h2
            · rw [if_neg e] at h1; rw [if_neg e2] at h2
              exact hi.one q r p h1 h2
    · have hc := hi.owned o p ho
      cases hf : m.cell p with
      | none => exact absurd hf hc
      | some f =>
        simp only [hf]
        refine ⟨?_, ?_⟩
        · simp only [reduceCtorEq, if_false, Option.map_some, Option.some.injEq]
          funext q
          simp only [Mem.shows, update_apply]
          by_cases e : q = o
          · rw [if_pos e, if_pos e]
          · rw [if_neg e, if_neg e]
            rcases hq : m.obj q with _ | _ | r
            · rfl
            · rfl
            · have : r ≠ p := fun e2 => e (hi.one q o p (e2 ▸ hq) ho)
              simp [this]
        · rintro m' h
          simp only [Option.some.injEq] at h
          subst h
          refine ⟨?_, ?_, ?_⟩
          · intro q r h
            simp only [update_apply] at h ⊢
            by_cases e : q = o
            · simp [e] at h
            · rw [if_neg e] at h
              have : r ≠ p := fun e2 => e (hi.one q o p (e2 ▸ h) ho)
              rw [if_neg this]
              exact hi.owned q r h
          · intro r h
            simp only [update_apply] at h
            by_cases e : r = p
            · simp [e] at h
            · rw [if_neg e] at h; exact hi.fresh r h
          · intro q r p' h1 h2
            simp only [update_apply] at h1 h2
            by_cases e : q = o
            · simp [e] at h1
            · by_cases e2 : r = o
              · simp [e2] at h2
              · rw [if_neg e] at h1; rw [if_neg e2] at h2
                exact hi.one q r p' h1 h2

theorem step_noleak {m : Mem F} (op : Op F) (hn : NoLeak m)
    (ho : match op with
      | .assign o _ => m.shows o = some none
      | .assignVar o _ => m.shows o = some none
      | _ => True) (m' : Mem F) (h : step m op = some m') (hi : Inv m) : NoLeak m' := by
  have he : ∀ o, m.shows o = some none → ∀ p, m.obj o ≠ some (some p) := by
    intro o h p hp
    simp only [Mem.shows, hp, Option.some.injEq] at h
    exact hi.owned o p hp h
  cases op with
  | make o =>
    simp only [step] at h
    by_cases c : m.obj o = none
    · rw [if_pos c] at h
      simp only [Option.some.injEq] at h
      subst h
      intro p hp
      obtain ⟨q, hq⟩ := hn p hp
      refine ⟨q, ?_⟩
      have : q ≠ o := fun e => by rw [e, c] at hq; simp at hq
      simp only [update_apply, if_neg this]
      exact hq
    · rw [if_neg c] at h; simp at h
  | wrap o f =>
    simp only [step] at h
    by_cases c : m.obj o = none
    · rw [if_pos c] at h
      simp only [Option.some.injEq] at h
      exact h ▸ store_noleak o f hn (by simp [c])
    · rw [if_neg c] at h; simp at h
  | copy o b =>
    simp only [step] at h
    by_cases c : m.obj o = none
    · rw [if_pos c] at h
      cases hr : m.read b with
      | some f =>
        simp only [hr, Option.some.injEq] at h
        exact h ▸ store_noleak o f hn (by simp [c])
      | none => simp [hr] at h
    · rw [if_neg c] at h; simp at h
  | assign o b =>
    simp only [step] at h
    by_cases c : m.obj o = none
    · rw [if_pos c] at h; simp at h
    · rw [if_neg c] at h
      cases hr : m.read b with
      | some f =>
        simp only [hr, Option.some.injEq] at h
        exact h ▸ store_noleak o f hn (he o ho)
      | none => simp [hr] at h
  | assignVar o f =>
    simp only [step] at h
    by_cases c : m.obj o = none
    · rw [if_pos c] at h; simp at h
    · rw [if_neg c] at h
      simp only [Option.some.injEq] at h
      exact h ▸ store_noleak o f hn (he o ho)
  | eval o =>
    simp only [step] at h
    cases hr : m.read o with
    | some f => simp only [hr, Option.some.injEq] at h; exact h ▸ hn
    | none => simp [hr] at h
  | destroy o =>
    simp only [step] at h
    rcases hob : m.obj o with _ | _ | p
    · simp [hob] at h
    · simp only [hob, Option.some.injEq] at h
      subst h
      intro p hp
      obtain ⟨q, hq⟩ := hn p hp
      refine ⟨q, ?_⟩
      have : q ≠ o := fun e => by rw [e, hob] at hq; simp at hq
      simp only [update_apply, if_neg this]
      exact hq
    · cases hf : m.cell p with
      | none => simp [hob, hf] at h
      | some f =>
        simp only [hob, hf, Option.some.injEq] at h
        subst h
        intro r hr
        simp only [update_apply] at hr
        by_cases e : r = p
        · simp [e] at hr
        · rw [if_neg e] at hr
          obtain ⟨q, hq⟩ := hn r hr
          refine ⟨q, ?_⟩
          have : q ≠ o := fun e2 => by
            rw [e2, hob] at hq
            simp only [Option.some.injEq] at hq
            exact e hq.symm
          simp only [update_apply, if_neg this]
          exact hq

theorem run_spec : ∀ (ops : List (Op F)) (m : Mem F), Inv m → (run m ops).map Mem.shows = vrun m.shows ops := by
  intro ops
  induction ops with
  | nil => intro m _; rfl
  | cons op ops ih =>
    intro m hi
    obtain ⟨h1, h2⟩ := step_spec hi op
    simp only [run, vrun]
    cases hs : step m op with
    | none => simp only [hs, Option.map_none] at h1; rw [← h1]; rfl
    | some m' =>
      simp only [hs, Option.map_some] at h1
      rw [← h1]
      exact ih m' (h2 m' hs)

theorem run_noleak : ∀ (ops : List (Op F)) (m : Mem F), Inv m → NoLeak m → Once m.shows ops →
    ∀ m', run m ops = some m' → NoLeak m' := by
  intro ops
  induction ops with
  | nil => intro m _ hn _ m' h; simp only [run, Option.some.injEq] at h; exact h ▸ hn
  | cons op ops ih =>
    intro m hi hn ho m' h
    obtain ⟨h1, h2⟩ := step_spec hi op
    simp only [run] at h
    simp only [Once] at ho
    cases hs : step m op with
    | none => simp [hs] at h
    | some m1 =>
      simp only [hs, Option.map_some] at h1
      simp only [hs] at h
      rw [← h1] at ho
      exact ih m1 (h2 m1 hs) (step_noleak op hn ho.1 m1 hs hi) ho.2 m' h

theorem empty_inv : Inv (Mem.empty : Mem F) :=
  ⟨fun _ _ h => by simp [Mem.empty] at h, fun _ h => by simp [Mem.empty] at h, fun _ _ _ h => by simp [Mem.empty] at h⟩

/-! ## C140 -/

/-- After every history, stored formulas are values: the program is undefined exactly where a missing or an empty
object is used, and otherwise every object has the formula it was last given; the objects it was copied from may have
changed or be gone. -/
theorem C140_values (ops : List (Op F)) : (run Mem.empty ops).map Mem.shows = vrun (fun _ => none) ops :=
  run_spec ops Mem.empty empty_inv

/-- After every history in which `=` is applied to empty objects only, and all objects of which are destroyed, no
memory is left. -/
theorem C140_no_leak_partial (ops : List (Op F)) (m : Mem F) (h : run Mem.empty ops = some m)
    (ho : Once (fun _ => none) ops) (hd : ∀ o, m.shows o = none) : ∀ p, m.cell p = none := by
  intro p
  by_contra hp
  obtain ⟨o, e⟩ := run_noleak ops Mem.empty empty_inv (fun p hp => absurd rfl hp) ho m h p hp
  have := (shows_none m o).1 (hd o)
  rw [e] at this
  simp at this

/-- The code loses the old formula in `=`. -/
theorem C140_leak_fails (f g : F) : ∃ m, run Mem.empty [.wrap 0 f, .assignVar 0 g, .destroy 0] = some m ∧
    (∀ o, m.shows o = none) ∧ m.cell 0 = some f := by
  refine ⟨_, rfl, ?_, rfl⟩
  intro o
  simp only [Mem.shows, Mem.store, Mem.empty, update_apply]
  by_cases c : o = 0 <;> simp [c]

/-- The code fails on a copy of an object made without a formula, although nothing is evaluated. -/
theorem C140_empty_fails : run (Mem.empty : Mem F) [.make 0, .copy 1 0] = none ∧
    run (Mem.empty : Mem F) [.make 0, .make 1, .assign 1 0] = none := ⟨rfl, rfl⟩

example : (run (Mem.empty : Mem Nat) [.make 0, .assignVar 0 5, .copy 1 0, .destroy 0, .eval 1, .wrap 0 7]).map
    (fun m => (m.shows 0, m.shows 1, m.shows 2)) = some (some (some 7), some (some 5), none) := by decide

example : Once (fun _ => none) ([.make 0, .assignVar 0 5, .copy 1 0, .destroy 0, .eval 1, .destroy 1] : List (Op Nat)) := by
  simp [Once, vstep]

end Verif.Dynamic.Stored
