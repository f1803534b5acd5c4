import Mathlib.Algebra.BigOperators.Group.List.Basic
import Mathlib.Tactic.Abel
/-
Assembly of a residual by several threads under locks: model and property C127.

`Residual::Lock`, `Residual::UnLock` (`Source/Headers/inmost_residual.h`, lines 98-109) over `Sparse::LockService`
(`Source/Solver/sparse.cpp`, lines 1310-1369).  Each thread of the user's parallel loop runs a list of additions
`R.Lock(row); R[row] += x; R.UnLock(row);`.

Simplifications.  An entry of the residual is an element of a commutative monoid (numbers in exact arithmetic, or a value
together with its derivatives).  `R[row] += x` reads the entry and writes the sum in two steps, between which any other
thread may run; steps of different threads are interleaved arbitrarily (sequential consistency; a lock is also a memory
fence).  An OpenMP lock is free or held by one thread.
-/

namespace Verif.Locks

/-- Where a thread is inside its first addition. -/
inductive Pc (A : Type) where
  | out
  | inside
  | got (reg : A)
  | done
deriving DecidableEq

/-- A thread: its place and the additions still to do, the first one being in work unless the place is `out`. -/
structure Thread (A : Type) where
  pc : Pc A
  todo : List (Nat × A)
deriving DecidableEq

/-- Residual, locks and threads.  `have_` tells whether `InitLocks` was called for a set of equations that is not empty
(`locks.Empty()` is false; inmost_residual.h, lines 99, 102, 105). -/
structure Par (A : Type) where
  have_ : Bool
  res : Nat → A
  lock : Nat → Option Nat
  threads : List (Thread A)

section
variable {A : Type} [AddCommMonoid A]

/-- One step of thread `t` (inmost_residual.h, lines 102, 105; sparse.cpp, lines 1315-1320, 1329-1334).  A thread that waits for a
lock, that has finished or that does not exist makes no step. -/
def step (s : Par A) (t : Nat) : Par A :=
  match s.threads[t]? with
  | none => s
  | some th =>
    match th.todo with
    | [] => s
    | (row, x) :: rest =>
      match th.pc with
      | .out =>
        if s.have_ then
          if s.lock row = none then
            { s with lock := Function.update s.lock row (some t),
                     threads := s.threads.set t ⟨.inside, (row, x) :: rest⟩ }
          else s
        else { s with threads := s.threads.set t ⟨.inside, (row, x) :: rest⟩ }
      | .inside => { s with threads := s.threads.set t ⟨.got (s.res row), (row, x) :: rest⟩ }
      | .got reg => { s with res := Function.update s.res row (reg + x),
                             threads := s.threads.set t ⟨.done, (row, x) :: rest⟩ }
      | .done =>
        if s.have_ then
          { s with lock := Function.update s.lock row none, threads := s.threads.set t ⟨.out, rest⟩ }
        else { s with threads := s.threads.set t ⟨.out, rest⟩ }

/-- A schedule: the threads in the order in which they make steps. -/
def run (s : Par A) (sched : List Nat) : Par A := sched.foldl step s

/-- The beginning: all locks free, all threads before their first addition. -/
def start (have_ : Bool) (res : Nat → A) (work : List (List (Nat × A))) : Par A :=
  ⟨have_, res, fun _ => none, work.map fun w => ⟨.out, w⟩⟩

/-- All threads have finished. -/
def finished (s : Par A) : Prop := ∀ th ∈ s.threads, th.todo = []

/-! ### Specification -/

/-- What a list of additions adds to one row. -/
def added (w : List (Nat × A)) (r : Nat) : A := ((w.filter fun q => q.1 = r).map Prod.snd).sum

/-- What all threads together add to one row. -/
def addedAll (work : List (List (Nat × A))) (r : Nat) : A := (work.map fun w => added w r).sum

/-! ### Proofs -/

/-- What a thread still has to add. -/
def pend (r : Nat) (th : Thread A) : A :=
  match th.pc with
  | .done => added th.todo.tail r
  | _ => added th.todo r

/-- The row whose lock a thread holds. -/
def holds (th : Thread A) : Option Nat :=
  match th.pc with
  | .out => none
  | _ => th.todo.head?.map Prod.fst

omit [AddCommMonoid A] in
theorem sum_set {B : Type} [AddCommMonoid B] (f : A → B) : ∀ (l : List A) (t : Nat) (a : A), l[t]? = some a →
    ∃ c, (l.map f).sum = f a + c ∧ ∀ b, ((l.set t b).map f).sum = f b + c := by
  intro l
  induction l with
  | nil => intro t a h; simp at h
  | cons d l ih =>
    intro t a h
    cases t with
    | zero =>
      simp only [List.getElem?_cons_zero, Option.some.injEq] at h
      subst h
      exact ⟨(l.map f).sum, by simp, fun b => by simp⟩
    | succ t =>
      simp only [List.getElem?_cons_succ] at h
      obtain ⟨c, h1, h2⟩ := ih t a h
      refine ⟨f d + c, ?_, fun b => ?_⟩
      · simp only [List.map_cons, List.sum_cons, h1]; abel
      · simp only [List.set_cons_succ, List.map_cons, List.sum_cons, h2 b]; abel

theorem added_cons (row : Nat) (x : A) (rest : List (Nat × A)) (r : Nat) :
    added ((row, x) :: rest) r = (if row = r then x else 0) + added rest r := by
  unfold added
  by_cases h : row = r <;> simp [List.filter_cons, h]

/-- The invariant. -/
structure Inv (res0 : Nat → A) (tot : Nat → A) (s : Par A) : Prop where
  have_ : s.have_ = true
  sum : ∀ r, s.res r + (s.threads.map (pend r)).sum = res0 r + tot r
  excl : ∀ t th r, s.threads[t]? = some th → (holds th = some r ↔ s.lock r = some t)
  out : ∀ t r, s.lock r = some t → t < s.threads.length
  reg : ∀ (t : Nat) (th : Thread A) (row : Nat) (x reg : A) (rest : List (Nat × A)),
    s.threads[t]? = some th → th.pc = .got reg → th.todo = (row, x) :: rest → reg = s.res row

omit [AddCommMonoid A] in
theorem get_set {B : Type} (l : List B) (t u : Nat) (b : B) (ht : t < l.length) :
    (l.set t b)[u]? = if t = u then some b else l[u]? := by
  rw [List.getElem?_set]
  by_cases h : t = u
  · subst h; simp [ht]
  · simp [h]

theorem set_inv {res0 tot : Nat → A} {s : Par A} (h : Inv res0 tot s) {t : Nat} {th th' : Thread A}
    (hth : s.threads[t]? = some th) {res' : Nat → A} {lock' : Nat → Option Nat}
    (hsum : ∀ r, res' r + pend r th' = s.res r + pend r th)
    (hown : ∀ r, holds th' = some r ↔ lock' r = some t)
    (hoth : ∀ u r, u ≠ t → (lock' r = some u ↔ s.lock r = some u))
    (hreg : ∀ (row : Nat) (x reg : A) (rest : List (Nat × A)), th'.pc = .got reg → th'.todo = (row, x) :: rest →
      reg = res' row)
    (hres : ∀ u row, u ≠ t → s.lock row = some u → res' row = s.res row) :
    Inv res0 tot { s with res := res', lock := lock', threads := s.threads.set t th' } := by
  have htl : t < s.threads.length := (List.getElem?_eq_some_iff.1 hth).1
  refine ⟨h.have_, ?_, ?_, ?_, ?_⟩
  · intro r
    obtain ⟨c, h1, h2⟩ := sum_set (pend r) s.threads t th hth
    have h3 := h.sum r
    simp only
    rw [h2 th', ← add_assoc, hsum r, add_assoc, ← h1, h3]
  · intro u thu r hu
    simp only at hu ⊢
    rw [get_set _ _ _ _ htl] at hu
    by_cases e : t = u
    · rw [if_pos e] at hu
      rw [← Option.some.inj hu, ← e]
      exact hown r
    · rw [if_neg e] at hu
      rw [hoth u r (fun e' => e e'.symm)]
      exact h.excl u thu r hu
  · intro u r hu
    simp only [List.length_set] at hu ⊢
    by_cases e : u = t
    · rw [e]; exact htl
    · exact h.out u r ((hoth u r e).1 hu)
  · intro u thu row x reg rest hu hpc htodo
    simp only at hu ⊢
    rw [get_set _ _ _ _ htl] at hu
    by_cases e : t = u
    · rw [if_pos e] at hu
      rw [← Option.some.inj hu] at hpc htodo
      exact hreg row x reg rest hpc htodo
    · rw [if_neg e] at hu
      have hl : s.lock row = some u := (h.excl u thu row hu).1 (by simp [holds, hpc, htodo])
      rw [hres u row (fun e' => e e'.symm) hl]
      exact h.reg u thu row x reg rest hu hpc htodo

theorem step_inv {res0 tot : Nat → A} {s : Par A} (h : Inv res0 tot s) (t : Nat) :
    Inv res0 tot (step s t) := by
  cases hth : s.threads[t]? with
  | none => simp only [step, hth]; exact h
  | some th =>
    cases htodo : th.todo with
    | nil => simp only [step, hth, htodo]; exact h
    | cons q rest =>
      obtain ⟨row, x⟩ := q
      have hex := fun r => h.excl t th r hth
      cases hpc : th.pc with
      | out =>
        simp only [step, hth, htodo, hpc, h.have_, if_true]
        by_cases hfree : s.lock row = none
        · rw [if_pos hfree]
          have := set_inv h hth (th' := ⟨.inside, (row, x) :: rest⟩) (res' := s.res)
            (lock' := Function.update s.lock row (some t))
            (by intro r; simp [pend, hpc, htodo])
            (by
              intro r
              have := hex r
              simp only [holds, hpc, reduceCtorEq, false_iff] at this
              simp only [holds, List.head?_cons, Option.map_some, Option.some.injEq, Function.update_apply]
              by_cases e : r = row
              · simp [e]
              · simp [e, this, Ne.symm e])
            (by
              intro u r hu
              simp only [Function.update_apply]
              by_cases e : r = row
              · simp [e, hfree, Ne.symm hu]
              · simp [e])
            (by intro row x reg rest hp _; simp at hp)
            (by intro u row _ _; rfl)
          simpa [h.have_] using this
        · rw [if_neg hfree]; exact h
      | inside =>
        simp only [step, hth, htodo, hpc]
        exact set_inv h hth (th' := ⟨.got (s.res row), (row, x) :: rest⟩) (res' := s.res) (lock' := s.lock)
          (by intro r; simp [pend, hpc, htodo])
          (by intro r; rw [← hex r]; simp [holds, hpc, htodo])
          (by intro u r _; rfl)
          (by
            intro row' x' reg rest' hp ht
            simp only [Pc.got.injEq] at hp
            simp only [List.cons.injEq, Prod.mk.injEq] at ht
            rw [← hp, ← ht.1.1])
          (by intro u row _ _; rfl)
      | got reg =>
        simp only [step, hth, htodo, hpc]
        have hr := h.reg t th row x reg rest hth hpc htodo
        have hl : s.lock row = some t := (hex row).1 (by simp [holds, hpc, htodo])
        refine set_inv h hth (th' := ⟨.done, (row, x) :: rest⟩) (lock' := s.lock) ?_ ?_ ?_ ?_ ?_
        · intro r
          simp only [pend, hpc, htodo, List.tail_cons, added_cons, Function.update_apply]
          by_cases e : r = row
          · simp [e, hr, add_assoc]
          · simp [e, Ne.symm e]
        · intro r; rw [← hex r]; simp [holds, hpc, htodo]
        · intro u r _; rfl
        · intro row x reg rest hp _; simp at hp
        · intro u row' hu hl'
          rw [Function.update_apply, if_neg]
          intro e
          rw [e, hl] at hl'
          exact hu (Option.some.inj hl').symm
      | done =>
        simp only [step, hth, htodo, hpc, h.have_, if_true]
        have hl : s.lock row = some t := (hex row).1 (by simp [holds, hpc, htodo])
        have := set_inv h hth (th' := ⟨.out, rest⟩) (res' := s.res)
          (lock' := Function.update s.lock row none)
          (by intro r; simp [pend, hpc, htodo])
          (by
            intro r
            have := hex r
            simp only [holds, hpc, htodo, List.head?_cons, Option.map_some, Option.some.injEq] at this
            simp only [holds, reduceCtorEq, false_iff, Function.update_apply]
            by_cases e : r = row
            · simp [e]
            · rw [if_neg e, ← this]; exact fun e' => e e'.symm)
          (by
            intro u r hu
            simp only [Function.update_apply]
            by_cases e : r = row
            · simp [e, hl, Ne.symm hu]
            · simp [e])
          (by intro row x reg rest hp _; simp at hp)
          (by intro u row _ _; rfl)
        simpa [h.have_] using this

theorem start_inv (res : Nat → A) (work : List (List (Nat × A))) :
    Inv res (addedAll work) (start true res work) := by
  refine ⟨rfl, ?_, ?_, ?_, ?_⟩
  · intro r
    simp [start, addedAll, Function.comp_def, pend]
  · intro t th r h
    simp only [start, List.getElem?_map, Option.map_eq_some_iff] at h
    obtain ⟨w, _, e⟩ := h
    simp [← e, holds, start]
  · intro t r h; simp [start] at h
  · intro t th row x reg rest h hp _
    simp only [start, List.getElem?_map, Option.map_eq_some_iff] at h
    obtain ⟨w, _, e⟩ := h
    simp [← e] at hp

theorem run_inv {res0 tot : Nat → A} : ∀ (sched : List Nat) (s : Par A), Inv res0 tot s →
    Inv res0 tot (run s sched) := by
  intro sched
  induction sched with
  | nil => intro s h; exact h
  | cons t l ih => intro s h; exact ih _ (step_inv h t)

/-! ### C127 -/

/-- C127.  Threads add to rows of a residual under locks.  Under every schedule: whenever all threads have finished, each entry is the
initial one plus everything that all threads added to it. -/
theorem C127_sum (res : Nat → A) (work : List (List (Nat × A))) (sched : List Nat)
    (hf : finished (run (start true res work) sched)) (r : Nat) :
    (run (start true res work) sched).res r = res r + addedAll work r := by
  have h := run_inv sched _ (start_inv res work)
  have := h.sum r
  have hz : ((run (start true res work) sched).threads.map (pend r)).sum = 0 := by
    apply List.sum_eq_zero
    intro a ha
    obtain ⟨th, hm, e⟩ := List.mem_map.1 ha
    rw [← e]
    have ht := hf th hm
    unfold pend
    split <;> simp [ht, added]
  rw [hz, add_zero] at this
  exact this

/-- C127, mutual exclusion: at no time two threads are inside the part between `Lock` and `UnLock` of the same row. -/
theorem C127_exclusive (res : Nat → A) (work : List (List (Nat × A))) (sched : List Nat) {t u : Nat} {a b : Thread A}
    (ha : (run (start true res work) sched).threads[t]? = some a)
    (hb : (run (start true res work) sched).threads[u]? = some b) {r : Nat} (h1 : holds a = some r)
    (h2 : holds b = some r) : t = u := by
  have h := run_inv sched _ (start_inv res work)
  have e1 := (h.excl t a r ha).1 h1
  have e2 := (h.excl u b r hb).1 h2
  rw [e1] at e2
  exact Option.some.inj e2

/-- Steps that a thread still has to make. -/
def left (th : Thread A) : Nat :=
  match th.pc with
  | .out => 4 * th.todo.length
  | .inside => 4 * th.todo.length - 1
  | .got _ => 4 * th.todo.length - 2
  | .done => 4 * th.todo.length - 3

/-- Steps that all threads still have to make. -/
def leftAll (s : Par A) : Nat := (s.threads.map left).sum

/-- C127, no deadlock: as long as some thread has not finished, a thread can make a step, and every step brings all threads
nearer to the end. -/
theorem C127_progress (res : Nat → A) (work : List (List (Nat × A))) (sched : List Nat)
    (hf : ¬ finished (run (start true res work) sched)) :
    ∃ t, leftAll (step (run (start true res work) sched) t) < leftAll (run (start true res work) sched) := by
  have h := run_inv sched _ (start_inv res work)
  generalize run (start true res work) sched = s at h hf
  -- a thread that is inside of its addition can always go on
  have hgo : ∀ (t : Nat) (th : Thread A), s.threads[t]? = some th → th.todo ≠ [] →
      (th.pc ≠ .out ∨ ∃ q, th.todo.head? = some q ∧ s.lock q.1 = none) → leftAll (step s t) < leftAll s := by
    intro t th hth hne hor
    cases htodo : th.todo with
    | nil => exact absurd htodo hne
    | cons q rest =>
      obtain ⟨row, x⟩ := q
      obtain ⟨c, h1, h2⟩ := sum_set left s.threads t th hth
      unfold leftAll
      rw [h1]
      cases hpc : th.pc with
      | out =>
        have hl : s.lock row = none := by
          rcases hor with e | ⟨q, e, hq⟩
          · exact absurd hpc e
          · rw [htodo] at e
            simp only [List.head?_cons, Option.some.injEq] at e
            rw [← e] at hq; exact hq
        simp only [step, hth, htodo, hpc, h.have_, if_true, if_pos hl, h2]
        simp only [left, hpc, htodo, List.length_cons]
        omega
      | inside =>
        simp only [step, hth, htodo, hpc, h2]
        simp only [left, hpc, htodo, List.length_cons]
        omega
      | got reg =>
        simp only [step, hth, htodo, hpc, h2]
        simp only [left, hpc, htodo, List.length_cons]
        omega
      | done =>
        simp only [step, hth, htodo, hpc, h.have_, if_true, h2]
        simp only [left, hpc, htodo, List.length_cons]
        omega
  obtain ⟨th, hm, hne⟩ : ∃ th ∈ s.threads, th.todo ≠ [] := by
    by_contra hno
    apply hf
    intro th hm
    by_contra e
    exact hno ⟨th, hm, e⟩
  obtain ⟨t, hth⟩ := List.mem_iff_getElem?.1 hm
  by_cases hp : th.pc = .out
  · cases htodo : th.todo with
    | nil => exact absurd htodo hne
    | cons q rest =>
      cases hl : s.lock q.1 with
      | none => exact ⟨t, hgo t th hth hne (Or.inr ⟨q, by simp [htodo], hl⟩)⟩
      | some u =>
        have hu := h.out u q.1 hl
        have hthu : s.threads[u]? = some s.threads[u] := List.getElem?_eq_getElem hu
        have hh := (h.excl u _ q.1 hthu).2 hl
        refine ⟨u, hgo u _ hthu ?_ (Or.inl ?_)⟩
        · intro e; unfold holds at hh; split at hh <;> simp [e] at hh
        · intro e; simp [holds, e] at hh
  · exact ⟨t, hgo t th hth hne (Or.inl hp)⟩

end

/-- C127 needs the locks: without `InitLocks` (or with an empty set of equations) `Lock` does nothing, and a sum can be lost. -/
theorem C127_unlocked_fails : ¬ ∀ (res : Nat → Nat) (work : List (List (Nat × Nat))) (sched : List Nat),
    finished (run (start false res work) sched) → ∀ r,
    (run (start false res work) sched).res r = res r + addedAll work r := by
  intro h
  have := h (fun _ => 0) [[(0, 1)], [(0, 2)]] [0, 1, 0, 1, 0, 1, 0, 1] (by
    intro th hm
    have e : (run (start false (fun _ => 0) [[(0, 1)], [(0, 2)]]) [0, 1, 0, 1, 0, 1, 0, 1]).threads =
        [⟨.out, []⟩, ⟨.out, []⟩] := by decide
    rw [e] at hm
    simp at hm
    rw [hm]) 0
  exact absurd this (by decide)

/-- The same schedule with locks: the second thread waits; a longer schedule finishes with the right sum. -/
example : (run (start true (fun _ => (10 : Nat)) [[(0, 1)], [(0, 2), (1, 5)]])
    ([0, 1, 0, 1, 0, 1, 0] ++ List.replicate 8 1)).threads = [⟨.out, []⟩, ⟨.out, []⟩] := by decide

example : (run (start true (fun _ => (10 : Nat)) [[(0, 1)], [(0, 2), (1, 5)]])
    ([0, 1, 0, 1, 0, 1, 0] ++ List.replicate 8 1)).res 0 = 13 := by decide

end Verif.Locks
