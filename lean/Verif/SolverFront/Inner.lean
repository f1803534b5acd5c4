import Mathlib.Logic.Function.Basic
/-
A linear solver along a history of calls: model and property C131.

`Solver::SetMatrix`, `Solve`, `Clear`, `SetParameter`, `Iterations`, destructor (`Source/Solver/solver.cpp`, lines 147-189, 195-201,
247-250) over `SolverInner` (`Source/Solver/solver_inner/SolverInner.cpp`, lines 36-60, 75-92, 283-289), `SolverILU2`
(`Source/Solver/solver_inner/solver_ilu2/SolverILU2.cpp`, lines 5-17, 25-63), `BCGS_solver`
(`Source/Solver/solver_inner/solver_bcgsl.hpp`, lines 1248-1301, 1333-1340, 1796) and `ILU2_preconditioner`
(`Source/Solver/solver_inner/solver_ilu2/solver_ilu2.hpp`, lines 50-65, 462-483, 555-560).

Simplifications.  The iterations themselves are not computed: the outcome of `Solve` tells with which matrix, which
preconditioner (made from which matrix with which parameters) and which tolerances they run.  Parameters come in two groups: those of
the preconditioner (`P`) and those of the iterations (`T`).  Matrices live on a heap, so that a pointer to a deleted one is seen.
`OrderInfo` is left out (see `Verif/OrderInfo`).  Communicators are compared, sizes of vectors are numbers.
-/

namespace Verif.SolverFront

/-- `BCGS_solver` with its `ILU2_preconditioner`: `Alink` and `init` of both, what the factors were made from, and whether `Solve` ran
(`last_it` and `last_resid` have no value before). -/
structure Krylov (M P : Type) where
  alink : Option Nat
  init : Bool
  plink : Option Nat
  pinit : Bool
  factors : Option (M × P)
  ran : Bool

/-- `SolverILU2` and the heap. -/
structure Inner (M P T : Type) where
  heap : Nat → Option M
  next : Nat
  matrix : Option Nat
  solver : Option (Krylov M P)
  prec : P
  tol : T

/-- Calls of the user. -/
inductive Call (M P T : Type) where
  | setMatrix (A : M) (old : Bool)
  | setPrec (p : P)
  | setTol (t : T)
  | solve (comm : Bool) (rhs sol : Nat)
  | iterations
  | clear

/-- Outcomes: nothing, exceptions of `Solve`, a run of the iterations, a number of iterations. -/
inductive Out (M P T : Type) where
  | nothing
  | notSet
  | otherComm
  | sizes
  | ran (A : M) (factors : M × P) (tol : T) (zeroGuess : Bool)
  | count

section
variable {M P T : Type}

/-- `SolverILU2()` (SolverILU2.cpp, lines 5-17; solver_bcgsl.hpp, lines 1273-1277; solver_ilu2.hpp, lines 50-58). -/
def Inner.new (p : P) (t : T) : Inner M P T :=
  ⟨fun _ => none, 0, none, some ⟨none, false, none, false, none, false⟩, p, t⟩

/-- `isInitialized` of the iterations (solver_bcgsl.hpp, line 1294). -/
def Krylov.isInit (k : Krylov M P) : Bool := k.init && k.pinit

/-- `Finalize` of both (solver_bcgsl.hpp, lines 1295-1300; solver_ilu2.hpp, lines 468-477). -/
def Krylov.finalize (k : Krylov M P) : Krylov M P := { k with init := false, pinit := false, factors := none }

/-- `ReplaceMAT` of both (solver_bcgsl.hpp, line 1796; solver_ilu2.hpp, lines 555-560). -/
def Krylov.replaceMat (k : Krylov M P) (a : Nat) : Krylov M P :=
  let k1 := if k.isInit then k.finalize else k
  let k2 := if k1.pinit then { k1 with pinit := false, factors := none } else k1
  { k2 with plink := some a, alink := some a }

/-- `Initialize` of both (solver_bcgsl.hpp, lines 1278-1293; solver_ilu2.hpp, lines 60-63, 462): the factors are made from the matrix
behind `Alink`; an error if that is not there. -/
def Krylov.initialize_ (k : Krylov M P) (heap : Nat → Option M) (p : P) : Option (Krylov M P) :=
  match k.alink with
  | none => none
  | some _ =>
    let k1 := if k.isInit then k.finalize else k
    if k1.pinit then some { k1 with init := true }
    else
      match k1.plink with
      | none => none
      | some a =>
        match heap a with
        | none => none
        | some A => some { k1 with init := true, pinit := true, factors := some (A, p) }

/-- `SolverILU2::SetMatrix` (SolverILU2.cpp, lines 25-50); the flag is not used. -/
def Inner.setMatrix (s : Inner M P T) (A : M) (_old : Bool) : Option (Inner M P T) :=
  let heap1 := match s.matrix with
    | none => s.heap
    | some m => Function.update s.heap m none
  let heap2 := Function.update heap1 s.next (some A)
  match s.solver with
  | none => none
  | some k =>
    let k1 := k.replaceMat s.next
    match (if k1.isInit then some k1 else k1.initialize_ heap2 s.prec) with
    | none => none
    | some k2 => some { s with heap := heap2, next := s.next + 1, matrix := some s.next, solver := some k2 }

/-- `Solver::Solve` and `SolverInner::Solve` (solver.cpp, lines 154-170; SolverInner.cpp, lines 36-43; solver_bcgsl.hpp, line 1340). -/
def Inner.solve (s : Inner M P T) (comm : Bool) (rhs sol : Nat) : Option (Inner M P T × Out M P T) :=
  match s.matrix with
  | none => some (s, .notSet)
  | some _ =>
    if comm = false then some (s, .otherComm)
    else if rhs ≠ sol ∧ sol ≠ 0 then some (s, .sizes)
    else
      match s.solver with
      | none => none
      | some k =>
        if k.isInit then
          match k.alink, k.factors with
          | some a, some f =>
            match s.heap a with
            | some A => some ({ s with solver := some { k with ran := true } }, .ran A f s.tol (decide (rhs ≠ sol)))
            | none => none
          | _, _ => none
        else none

/-- `SolverInner::Clear` (SolverInner.cpp, lines 45-56). -/
def Inner.clear (s : Inner M P T) : Inner M P T :=
  { s with heap := (match s.matrix with
                    | none => s.heap
                    | some m => Function.update s.heap m none),
           matrix := none, solver := none }

/-- `SolverInner::Iterations` (SolverInner.cpp, lines 86-88): reads through the pointer, and a member without initial value. -/
def Inner.iterations (s : Inner M P T) : Option (Out M P T) :=
  match s.solver with
  | none => none
  | some k => if k.ran then some .count else none

/-- One call. -/
def Inner.call (s : Inner M P T) : Call M P T → Option (Inner M P T × Out M P T)
  | .setMatrix A old =>
    match s.setMatrix A old with
    | none => none
    | some s' => some (s', .nothing)
  | .setPrec p => some ({ s with prec := p }, .nothing)
  | .setTol t => some ({ s with tol := t }, .nothing)
  | .solve c r v => s.solve c r v
  | .iterations =>
    match s.iterations with
    | none => none
    | some o => some (s, o)
  | .clear => some (s.clear, .nothing)

/-- A history of calls. -/
def Inner.calls (s : Inner M P T) : List (Call M P T) → Option (Inner M P T × List (Out M P T))
  | [] => some (s, [])
  | c :: cs =>
    match s.call c with
    | none => none
    | some (s', o) =>
      match s'.calls cs with
      | none => none
      | some (s'', os) => some (s'', o :: os)

/-! ### Specification -/

/-- What the user knows: the matrix set last, what the preconditioner was made from, the parameters now, and whether a number of
iterations is there. -/
structure Know (M P T : Type) where
  matrix : Option M
  factors : Option (M × P)
  prec : P
  tol : T
  ran : Bool

/-- Documented effect of a call (`Source/Headers/inmost_solver.h`, lines 300-329).  With `old` a preconditioner that exists
stays.  `Iterations` is allowed after a run. -/
def Know.call (k : Know M P T) : Call M P T → Option (Know M P T × Out M P T)
  | .setMatrix A old =>
    some ({ k with matrix := some A,
                   factors := match old, k.factors with
                     | true, some f => some f
                     | _, _ => some (A, k.prec) }, .nothing)
  | .setPrec p => some ({ k with prec := p }, .nothing)
  | .setTol t => some ({ k with tol := t }, .nothing)
  | .solve c r v =>
    match k.matrix, k.factors with
    | some A, some f =>
      if c = false then some (k, .otherComm)
      else if r ≠ v ∧ v ≠ 0 then some (k, .sizes)
      else some ({ k with ran := true }, .ran A f k.tol (decide (r ≠ v)))
    | _, _ => some (k, .notSet)
  | .iterations => if k.ran then some (k, .count) else none
  | .clear => some ({ k with matrix := none, factors := none, ran := false }, .nothing)

/-- A history. -/
def Know.calls (k : Know M P T) : List (Call M P T) → Option (Know M P T × List (Out M P T))
  | [] => some (k, [])
  | c :: cs =>
    match k.call c with
    | none => none
    | some (k', o) =>
      match k'.calls cs with
      | none => none
      | some (k'', os) => some (k'', o :: os)

/-- A new solver. -/
def Know.new (p : P) (t : T) : Know M P T := ⟨none, none, p, t, false⟩

/-! ### Proofs -/

/-- A history in which no matrix is set after a `Clear`, and none with the flag `old`. -/
def Plain : Bool → List (Call M P T) → Prop
  | _, [] => True
  | cleared, .setMatrix _ old :: cs => cleared = false ∧ old = false ∧ Plain cleared cs
  | _, .clear :: cs => Plain true cs
  | cleared, _ :: cs => Plain cleared cs

structure InnerRel (cleared : Bool) (s : Inner M P T) (k : Know M P T) : Prop where
  prec : s.prec = k.prec
  tol : s.tol = k.tol
  same : k.matrix = none ↔ k.factors = none
  /-- the solver with a matrix -/
  some_ : ∀ A f, k.matrix = some A → k.factors = some f → ∃ m, s.matrix = some m ∧ s.heap m = some A ∧ m < s.next ∧
    s.solver = some ⟨some m, true, some m, true, some f, k.ran⟩
  /-- the solver without -/
  none_ : k.matrix = none → s.matrix = none ∧ k.ran = false ∧
    (cleared = false → s.solver = some ⟨none, false, none, false, none, false⟩) ∧ (cleared = true → s.solver = none)
  /-- only one matrix -/
  only : ∀ m, s.heap m ≠ none → s.matrix = some m
  clr : cleared = true → k.matrix = none

theorem call_rel {cl : Bool} {s : Inner M P T} {k k' : Know M P T} {c : Call M P T} {o : Out M P T} {cs : List (Call M P T)}
    (h : InnerRel cl s k) (hp : Plain cl (c :: cs)) (hk : k.call c = some (k', o)) :
    ∃ s' cl', s.call c = some (s', o) ∧ InnerRel cl' s' k' ∧ Plain cl' cs := by
  cases c with
  | setMatrix A old =>
    obtain ⟨h1, h2, h3⟩ := hp
    rw [h1] at h h3
    simp only [Know.call, h2, Option.some.injEq, Prod.mk.injEq] at hk
    obtain ⟨e1, e2⟩ := hk
    rw [← e1, ← e2]
    have hheap : ∀ m, (match s.matrix with
        | none => s.heap
        | some m => Function.update s.heap m none) m = none := by
      intro m
      by_cases hm : s.heap m = none
      · cases hs : s.matrix with
        | none => simp only; exact hm
        | some m' =>
          simp only [Function.update_apply]
          split
          · rfl
          · exact hm
      · rw [h.only m hm]
        simp
    have key : ∃ r, s.setMatrix A old = some
        { s with heap := Function.update (match s.matrix with
                            | none => s.heap
                            | some m => Function.update s.heap m none) s.next (some A),
                 next := s.next + 1, matrix := some s.next,
                 solver := some ⟨some s.next, true, some s.next, true, some (A, s.prec), r⟩ } ∧ r = k.ran := by
      cases hm : k.matrix with
      | none =>
        obtain ⟨g1, g2, g3, _⟩ := h.none_ hm
        refine ⟨false, ?_, g2.symm⟩
        unfold Inner.setMatrix
        simp only [g3 rfl, g1, Krylov.replaceMat, Krylov.isInit, Krylov.initialize_, Function.update_self, Bool.false_and,
          Bool.false_eq_true, if_false]
      | some A0 =>
        cases hf : k.factors with
        | none => exact absurd (h.same.2 hf) (by rw [hm]; simp)
        | some f =>
          obtain ⟨m, g1, g2, g3, g4⟩ := h.some_ A0 f hm hf
          refine ⟨k.ran, ?_, rfl⟩
          unfold Inner.setMatrix
          simp only [g4, g1, Krylov.replaceMat, Krylov.isInit, Krylov.finalize, Krylov.initialize_, Function.update_self,
            Bool.and_self, if_true, Bool.false_eq_true, if_false]
    obtain ⟨r, hset, hr⟩ := key
    simp only [Inner.call, hset]
    refine ⟨_, false, rfl, ⟨h.prec, h.tol, by simp, ?_, by simp, ?_, by simp⟩, h3⟩
    · intro A' f' hA hf
      simp only [Option.some.injEq] at hA hf
      refine ⟨s.next, rfl, by simp [hA], Nat.lt_succ_self _, ?_⟩
      simp only [hr, ← hf, h.prec]
    · intro m hm
      simp only [Function.update_apply] at hm ⊢
      split at hm
      · rename_i e; rw [e]
      · exact absurd (hheap m) hm
  | setPrec p =>
    simp only [Know.call, Option.some.injEq, Prod.mk.injEq] at hk
    obtain ⟨e1, e2⟩ := hk
    rw [← e1, ← e2]
    exact ⟨_, cl, rfl, ⟨rfl, h.tol, h.same, h.some_, h.none_, h.only, h.clr⟩, hp⟩
  | setTol t =>
    simp only [Know.call, Option.some.injEq, Prod.mk.injEq] at hk
    obtain ⟨e1, e2⟩ := hk
    rw [← e1, ← e2]
    exact ⟨_, cl, rfl, ⟨h.prec, rfl, h.same, h.some_, h.none_, h.only, h.clr⟩, hp⟩
  | solve c r v =>
    simp only [Know.call] at hk
    cases hm : k.matrix with
    | none =>
      simp only [hm, Option.some.injEq, Prod.mk.injEq] at hk
      obtain ⟨e1, e2⟩ := hk
      rw [← e1, ← e2]
      refine ⟨s, cl, ?_, h, hp⟩
      simp only [Inner.call, Inner.solve, (h.none_ hm).1]
    | some A =>
      cases hf : k.factors with
      | none => exact absurd (h.same.2 hf) (by rw [hm]; simp)
      | some f =>
        obtain ⟨m, g1, g2, g3, g4⟩ := h.some_ A f hm hf
        simp only [hm, hf] at hk
        simp only [Inner.call, Inner.solve, g1]
        by_cases hc : c = false
        · rw [if_pos hc] at hk ⊢
          simp only [Option.some.injEq, Prod.mk.injEq] at hk
          obtain ⟨e1, e2⟩ := hk
          rw [← e1, ← e2]
          exact ⟨s, cl, rfl, h, hp⟩
        · rw [if_neg hc] at hk ⊢
          by_cases hs : r ≠ v ∧ v ≠ 0
          · rw [if_pos hs] at hk ⊢
            simp only [Option.some.injEq, Prod.mk.injEq] at hk
            obtain ⟨e1, e2⟩ := hk
            rw [← e1, ← e2]
            exact ⟨s, cl, rfl, h, hp⟩
          · rw [if_neg hs] at hk ⊢
            simp only [Option.some.injEq, Prod.mk.injEq] at hk
            obtain ⟨e1, e2⟩ := hk
            rw [← e1, ← e2]
            simp only [g4, Krylov.isInit, Bool.and_self, if_true, g2, h.tol]
            refine ⟨_, cl, rfl, ⟨h.prec, rfl, by simp, ?_, by simp, ?_, ?_⟩, hp⟩
            · intro A' f' hA' hf'
              simp only [Option.some.injEq] at hA' hf'
              exact ⟨m, rfl, by rw [← hA']; exact g2, g3, by rw [← hf']⟩
            · intro m' hm'
              have := h.only m' hm'
              rw [g1] at this
              exact this
            · intro hcl
              exact absurd (h.clr hcl) (by rw [hm]; simp)
  | iterations =>
    simp only [Know.call] at hk
    split at hk
    · rename_i hr
      simp only [Option.some.injEq, Prod.mk.injEq] at hk
      obtain ⟨e1, e2⟩ := hk
      rw [← e1, ← e2]
      refine ⟨s, cl, ?_, h, hp⟩
      cases hm : k.matrix with
      | none => exact absurd (h.none_ hm).2.1 (by rw [hr]; simp)
      | some A =>
        cases hf : k.factors with
        | none => exact absurd (h.same.2 hf) (by rw [hm]; simp)
        | some f =>
          obtain ⟨m, g1, g2, g3, g4⟩ := h.some_ A f hm hf
          simp only [Inner.call, Inner.iterations, g4, hr, if_true]
    · exact absurd hk (by simp)
  | clear =>
    simp only [Know.call, Option.some.injEq, Prod.mk.injEq] at hk
    obtain ⟨e1, e2⟩ := hk
    rw [← e1, ← e2]
    refine ⟨_, true, rfl, ⟨h.prec, h.tol, by simp, by simp, ?_, ?_, by simp⟩, hp⟩
    · intro _
      exact ⟨rfl, rfl, by simp, fun _ => rfl⟩
    · intro m hm
      exfalso
      simp only [Inner.clear] at hm
      cases hs : s.matrix with
      | none =>
        simp only [hs] at hm
        exact absurd (h.only m hm) (by rw [hs]; simp)
      | some m' =>
        simp only [hs, Function.update_apply] at hm
        split at hm
        · exact hm rfl
        · rename_i hne
          have := h.only m hm
          rw [hs] at this
          exact hne (Option.some.inj this).symm

theorem calls_rel : ∀ (cs : List (Call M P T)) {cl : Bool} {s : Inner M P T} {k k' : Know M P T} {os : List (Out M P T)},
    InnerRel cl s k → Plain cl cs → k.calls cs = some (k', os) →
    ∃ s' cl', s.calls cs = some (s', os) ∧ InnerRel cl' s' k' := by
  intro cs
  induction cs with
  | nil =>
    intro cl s k k' os h _ hk
    simp only [Know.calls, Option.some.injEq, Prod.mk.injEq] at hk
    obtain ⟨e1, e2⟩ := hk
    exact ⟨s, cl, by rw [← e2]; rfl, e1 ▸ h⟩
  | cons c cs ih =>
    intro cl s k k' os h hp hk
    simp only [Know.calls] at hk
    cases hc : k.call c with
    | none => simp only [hc] at hk; exact absurd hk (by simp)
    | some q =>
      obtain ⟨k1, o⟩ := q
      simp only [hc] at hk
      cases hcs : k1.calls cs with
      | none => simp only [hcs] at hk; exact absurd hk (by simp)
      | some q =>
        obtain ⟨k2, os'⟩ := q
        simp only [hcs, Option.some.injEq, Prod.mk.injEq] at hk
        obtain ⟨e1, e2⟩ := hk
        obtain ⟨s1, cl1, g1, g2, g3⟩ := call_rel h hp hc
        obtain ⟨s2, cl2, g4, g5⟩ := ih g2 g3 hcs
        exact ⟨s2, cl2, by simp only [Inner.calls, g1, g4, e2], e1 ▸ g5⟩

theorem new_rel (p : P) (t : T) : InnerRel false (Inner.new p t : Inner M P T) (Know.new p t) :=
  ⟨rfl, rfl, by simp [Know.new], by simp [Know.new], fun _ => ⟨rfl, rfl, fun _ => rfl, by simp⟩,
    fun m hm => absurd rfl hm, by simp⟩

/-! ### C131 -/

/-- C131 for histories in which no matrix is set after `Clear` and none with `OldPreconditioner`.  Every call has the documented
outcome: the iterations run with the matrix set last, with a preconditioner made from that matrix and the parameters of that moment,
and with the tolerances of the moment of `Solve`; exceptions come exactly when no matrix is set, communicators differ or sizes
differ.  The destructor leaves no matrix behind. -/
theorem C131_history_partial (p : P) (t : T) (cs : List (Call M P T)) (hp : Plain false cs) (k : Know M P T)
    (os : List (Out M P T)) (hk : (Know.new p t).calls cs = some (k, os)) :
    ∃ s, (Inner.new p t).calls cs = some (s, os) ∧ ∀ m, s.clear.heap m = none := by
  obtain ⟨s, cl, h1, h2⟩ := calls_rel cs (new_rel p t) hp hk
  refine ⟨s, h1, fun m => ?_⟩
  simp only [Inner.clear]
  cases hs : s.matrix with
  | none =>
    simp only
    cases hm : s.heap m with
    | none => rfl
    | some x => exact absurd (h2.only m (by rw [hm]; simp)) (by rw [hs]; simp)
  | some m' =>
    simp only [Function.update_apply]
    split
    · rfl
    · rename_i hne
      cases hm : s.heap m with
      | none => rfl
      | some x =>
        have := h2.only m (by rw [hm]; simp)
        rw [hs] at this
        exact absurd (Option.some.inj this).symm hne

end

/-- C131 fails after `Clear`: the next `SetMatrix` uses the iterations that `Clear` deleted. -/
theorem C131_clear_fails : ¬ ∀ (cs : List (Call Nat Nat Nat)) (k : Know Nat Nat Nat) (os : List (Out Nat Nat Nat)),
    (Know.new 0 0).calls cs = some (k, os) → ∃ s, (Inner.new 0 0).calls cs = some (s, os) := by
  intro h
  obtain ⟨s, e⟩ := h [.setMatrix 1 false, .clear, .setMatrix 2 false] ⟨some 2, some (2, 0), 0, 0, false⟩
    [.nothing, .nothing, .nothing] rfl
  have : (Inner.new 0 0).calls [.setMatrix 1 false, .clear, .setMatrix 2 false] =
      (none : Option (Inner Nat Nat Nat × List (Out Nat Nat Nat))) := rfl
  rw [this] at e
  exact absurd e (by simp)

/-- C131 fails for `OldPreconditioner`: the flag has no effect, the preconditioner is made anew. -/
theorem C131_old_fails : ¬ ∀ (cs : List (Call Nat Nat Nat)) (k : Know Nat Nat Nat) (os : List (Out Nat Nat Nat)),
    Call.clear ∉ cs → (Know.new 0 0).calls cs = some (k, os) → ∃ s, (Inner.new 0 0).calls cs = some (s, os) := by
  intro h
  obtain ⟨s, e⟩ := h [.setMatrix 1 false, .setMatrix 2 true, .solve true 3 3] ⟨some 2, some (1, 0), 0, 0, true⟩
    [.nothing, .nothing, .ran 2 (1, 0) 0 false] (by simp) rfl
  have : ((Inner.new 0 0).calls [.setMatrix 1 false, .setMatrix 2 true, .solve true 3 3]).map Prod.snd =
      (some [.nothing, .nothing, .ran 2 (2, 0) 0 false] : Option (List (Out Nat Nat Nat))) := rfl
  rw [e] at this
  simp at this

/-- A history with changes of parameters and matrices that the theorem covers. -/
example : ((Know.new 5 7).calls [.solve true 3 3, .setMatrix 1 false, .setPrec 6, .setTol 8, .solve true 3 0, .iterations,
    .setMatrix 2 false, .solve false 3 3, .solve true 3 4, .solve true 3 3, .clear, .solve true 3 3]).map Prod.snd =
    (some [.notSet, .nothing, .nothing, .nothing, .ran 1 (1, 5) 8 true, .count, .nothing, .otherComm, .sizes,
      .ran 2 (2, 6) 8 false, .nothing, .notSet] : Option (List (Out Nat Nat Nat))) := rfl

example : Plain false ([.solve true 3 3, .setMatrix 1 false, .setPrec 6, .setTol 8, .solve true 3 0, .iterations,
    .setMatrix 2 false, .solve false 3 3, .solve true 3 4, .solve true 3 3, .clear, .solve true 3 3] :
    List (Call Nat Nat Nat)) := by simp [Plain]

end Verif.SolverFront
