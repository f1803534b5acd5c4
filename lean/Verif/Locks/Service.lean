import Mathlib.Logic.Function.Basic
import Mathlib.Tactic.ByContra
/-
Life of the locks of equations: model and property C128.

`Sparse::LockService` (`Source/Headers/inmost_sparse.h`, lines 441-461; `Source/Solver/sparse.cpp`, lines 1310-1357, the branch
with OpenMP) and its use in `Residual` (`Source/Headers/inmost_residual.h`, lines 98-109).

Simplifications.  One thread.  The container `interval` is used through its specification (first index and list, property
C126).  The states of an OpenMP lock are those of the OpenMP standard; a copy of the bytes of a destroyed lock counts as
destroyed.  Waiting for a lock that the thread itself holds is an error.
-/

namespace Verif.Locks

/-- State of an OpenMP lock: never initialized, unlocked, locked, destroyed. -/
inductive LockSt where
  | raw
  | free
  | held
  | dead
deriving DecidableEq

/-- `LockService`: first index and locks (inmost_sparse.h, line 443). -/
structure Svc where
  beg : Nat
  locks : List LockSt
deriving DecidableEq

/-- `omp_destroy_lock`: the lock must be initialized and unlocked. -/
def destroyOne : LockSt → Option LockSt
  | .free => some .dead
  | _ => none

/-- `omp_init_lock`: the lock must not be initialized. -/
def initOne : LockSt → Option LockSt
  | .raw => some .free
  | .dead => some .free
  | _ => none

/-- A loop over all locks; an error stops. -/
def each (f : LockSt → Option LockSt) : List LockSt → Option (List LockSt)
  | [] => some []
  | x :: xs =>
    match f x, each f xs with
    | some y, some ys => some (y :: ys)
    | _, _ => none

/-- `DestroyLocks` (sparse.cpp, lines 1346-1353). -/
def Svc.destroyLocks (s : Svc) : Option Svc :=
  match each destroyOne s.locks with
  | none => none
  | some l => some ⟨s.beg, l⟩

/-- `set_interval_beg`, `set_interval_end` (C126): the first elements stay, new ones are not initialized. -/
def Svc.resize (s : Svc) (b e : Nat) : Svc :=
  ⟨b, s.locks.take (e - b) ++ List.replicate (e - b - s.locks.length) .raw⟩

/-- `SetInterval` (sparse.cpp, lines 1335-1345). -/
def Svc.setInterval (s : Svc) (b e : Nat) : Option Svc :=
  match (if s.locks ≠ [] then s.destroyLocks else some s) with
  | none => none
  | some s1 =>
    if e ≠ b then
      match each initOne (s1.resize b e).locks with
      | none => none
      | some l => some ⟨b, l⟩
    else some s1

/-- `Lock` of a row (sparse.cpp, lines 1315-1320). -/
def Svc.lock (s : Svc) (row : Nat) : Option Svc :=
  if s.beg ≤ row then
    match s.locks[row - s.beg]? with
    | some .free => some { s with locks := s.locks.set (row - s.beg) .held }
    | _ => none
  else none

/-- `UnLock` of a row (sparse.cpp, lines 1329-1334). -/
def Svc.unlock (s : Svc) (row : Nat) : Option Svc :=
  if s.beg ≤ row then
    match s.locks[row - s.beg]? with
    | some .held => some { s with locks := s.locks.set (row - s.beg) .free }
    | _ => none
  else none

/-- `TestLock` of a row (sparse.cpp, lines 1321-1328). -/
def Svc.testLock (s : Svc) (row : Nat) : Option (Svc × Bool) :=
  if s.beg ≤ row then
    match s.locks[row - s.beg]? with
    | some .free => some ({ s with locks := s.locks.set (row - s.beg) .held }, true)
    | some .held => some (s, false)
    | _ => none
  else none

/-- `Residual::TestLock` (inmost_residual.h, line 109). -/
def resTestLock (s : Svc) (row : Nat) : Option (Svc × Bool) :=
  if s.locks ≠ [] then s.testLock row else some (s, false)

/-- `Residual::Lock` (inmost_residual.h, line 102). -/
def resLock (s : Svc) (row : Nat) : Option Svc :=
  if s.locks ≠ [] then s.lock row else some s

/-- Calls of the user.  `setInterval` also stands for the constructor with an interval, the copy constructor, the assignment
(inmost_sparse.h, lines 446-448) and `Residual::InitLocks` (inmost_residual.h, line 99), with the bounds of the other object. -/
inductive SvcOp where
  | setInterval (b e : Nat)
  | lock (row : Nat)
  | unlock (row : Nat)
  | testLock (row : Nat)

/-- One call; answers of `TestLock` are collected. -/
def svcCall (s : Svc) : SvcOp → Option (Svc × List Bool)
  | .setInterval b e =>
    match s.setInterval b e with
    | none => none
    | some s' => some (s', [])
  | .lock r =>
    match s.lock r with
    | none => none
    | some s' => some (s', [])
  | .unlock r =>
    match s.unlock r with
    | none => none
    | some s' => some (s', [])
  | .testLock r =>
    match s.testLock r with
    | none => none
    | some (s', a) => some (s', [a])

/-- A history of calls on an empty service (constructor, inmost_sparse.h, line 446). -/
def svcCalls (s : Svc) : List SvcOp → Option (Svc × List Bool)
  | [] => some (s, [])
  | o :: os =>
    match svcCall s o with
    | none => none
    | some (s', a) =>
      match svcCalls s' os with
      | none => none
      | some (s'', as) => some (s'', a ++ as)

/-! ### Specification -/

/-- The user's view: bounds of the rows and which rows are locked. -/
structure View where
  b : Nat
  e : Nat
  locked : Nat → Bool

/-- What a call should do; `none` if it is not allowed: a new interval while a row is locked, a row outside of the interval, locking
twice, unlocking what is not locked.  `empty_` tells whether an interval without rows is allowed. -/
def svcWant (empty_ : Bool) (v : View) : SvcOp → Option (View × List Bool)
  | .setInterval b e =>
    if (∀ r, r < v.e → v.locked r = false) ∧ (b < e ∨ (b = e ∧ empty_)) then some (⟨b, e, fun _ => false⟩, []) else none
  | .lock r =>
    if v.b ≤ r ∧ r < v.e ∧ v.locked r = false then some (⟨v.b, v.e, Function.update v.locked r true⟩, []) else none
  | .unlock r =>
    if v.b ≤ r ∧ r < v.e ∧ v.locked r = true then some (⟨v.b, v.e, Function.update v.locked r false⟩, []) else none
  | .testLock r =>
    if v.b ≤ r ∧ r < v.e then some (⟨v.b, v.e, Function.update v.locked r true⟩, [!v.locked r]) else none

/-- A history. -/
def svcWants (empty_ : Bool) (v : View) : List SvcOp → Option (View × List Bool)
  | [] => some (v, [])
  | o :: os =>
    match svcWant empty_ v o with
    | none => none
    | some (v', a) =>
      match svcWants empty_ v' os with
      | none => none
      | some (v'', as) => some (v'', a ++ as)

/-- An empty service. -/
def View.init : View := ⟨0, 0, fun _ => false⟩

/-! ### Proofs -/

structure SvcRel (s : Svc) (v : View) : Prop where
  beg : s.beg = v.b
  le : v.b ≤ v.e
  len : s.locks.length = v.e - v.b
  st : ∀ r, v.b ≤ r → r < v.e → s.locks[r - v.b]? = some (if v.locked r then .held else .free)
  out : ∀ r, r < v.b → v.locked r = false

theorem each_all (f : LockSt → Option LockSt) (y : LockSt) : ∀ (l : List LockSt), (∀ x ∈ l, f x = some y) →
    each f l = some (List.replicate l.length y) := by
  intro l
  induction l with
  | nil => intro _; rfl
  | cons a l ih =>
    intro h
    simp only [each, h a (by simp), ih fun x hx => h x (by simp [hx]), List.length_cons, List.replicate_succ]

theorem SvcRel.set {s : Svc} {v : View} (h : SvcRel s v) {r : Nat} (h1 : v.b ≤ r) (h2 : r < v.e) (x : Bool) :
    SvcRel { s with locks := s.locks.set (r - s.beg) (if x then .held else .free) }
      ⟨v.b, v.e, Function.update v.locked r x⟩ := by
  refine ⟨h.beg, h.le, by simpa using h.len, ?_, ?_⟩
  · intro r' h1' h2'
    simp only [h.beg] at h1' h2' ⊢
    rw [List.getElem?_set]
    by_cases e : r' = r
    · rw [e, if_pos rfl, if_pos (by rw [h.len]; omega)]
      simp
    · rw [if_neg (by omega)]
      simp only [Function.update_of_ne e]
      exact h.st r' h1' h2'
  · intro r' hr'
    simp only at hr' ⊢
    rw [Function.update_of_ne (by omega)]
    exact h.out r' hr'

theorem svcCall_rel {s : Svc} {v v' : View} {o : SvcOp} {a : List Bool} (h : SvcRel s v)
    (hw : svcWant false v o = some (v', a)) : ∃ s', svcCall s o = some (s', a) ∧ SvcRel s' v' := by
  cases o with
  | setInterval b e =>
    simp only [svcWant] at hw
    split at hw
    · rename_i hc
      obtain ⟨hfree, hbe⟩ := hc
      simp only [Bool.false_eq_true, and_false, or_false] at hbe
      simp only [Option.some.injEq, Prod.mk.injEq] at hw
      obtain ⟨e1, e2⟩ := hw
      rw [← e1, ← e2]
      have hall : ∀ x ∈ s.locks, x = .free := by
        intro x hx
        obtain ⟨i, hi⟩ := List.mem_iff_getElem?.1 hx
        have hil : i < s.locks.length := (List.getElem?_eq_some_iff.1 hi).1
        rw [h.len] at hil
        have := h.st (v.b + i) (by omega) (by omega)
        rw [show v.b + i - v.b = i by omega, hi, hfree (v.b + i) (by omega)] at this
        simpa using this
      have hd : (if s.locks ≠ [] then s.destroyLocks else some s) =
          some ⟨s.beg, List.replicate s.locks.length .dead⟩ := by
        by_cases hn : s.locks = []
        · rw [if_neg (by simp [hn]), hn]
          cases s with
          | mk bb ll => simp only at hn; rw [hn]; rfl
        · rw [if_pos hn]
          unfold Svc.destroyLocks
          rw [each_all destroyOne .dead s.locks fun x hx => by rw [hall x hx]; rfl]
      have hi : each initOne ((⟨s.beg, List.replicate s.locks.length .dead⟩ : Svc).resize b e).locks =
          some (List.replicate (e - b) .free) := by
        rw [each_all initOne .free]
        · congr 2
          simp [Svc.resize]; omega
        · intro x hx
          simp only [Svc.resize, List.mem_append] at hx
          rcases hx with hx | hx
          · have := List.mem_of_mem_take hx
            rw [(List.mem_replicate.1 this).2]; rfl
          · rw [(List.mem_replicate.1 hx).2]; rfl
      refine ⟨⟨b, List.replicate (e - b) .free⟩, ?_, ?_⟩
      · unfold svcCall Svc.setInterval
        simp only [hd]
        rw [if_pos (by omega)]
        simp only [hi]
      · refine ⟨rfl, by simp only; omega, by simp, ?_, fun _ _ => rfl⟩
        intro r h1 h2
        simp only at h1 h2 ⊢
        rw [List.getElem?_replicate, if_pos (by omega)]
        rfl
    · exact absurd hw (by simp)
  | lock r =>
    simp only [svcWant] at hw
    split at hw
    · rename_i hc
      obtain ⟨h1, h2, h3⟩ := hc
      simp only [Option.some.injEq, Prod.mk.injEq] at hw
      obtain ⟨e1, e2⟩ := hw
      rw [← e1, ← e2]
      have hs := h.st r h1 h2
      rw [h3] at hs
      refine ⟨_, ?_, h.set h1 h2 true⟩
      simp only [svcCall, Svc.lock, h.beg, if_pos h1, hs]
      rfl
    · exact absurd hw (by simp)
  | unlock r =>
    simp only [svcWant] at hw
    split at hw
    · rename_i hc
      obtain ⟨h1, h2, h3⟩ := hc
      simp only [Option.some.injEq, Prod.mk.injEq] at hw
      obtain ⟨e1, e2⟩ := hw
      rw [← e1, ← e2]
      have hs := h.st r h1 h2
      rw [h3] at hs
      refine ⟨_, ?_, h.set h1 h2 false⟩
      simp only [svcCall, Svc.unlock, h.beg, if_pos h1, hs]
      rfl
    · exact absurd hw (by simp)
  | testLock r =>
    simp only [svcWant] at hw
    split at hw
    · rename_i hc
      obtain ⟨h1, h2⟩ := hc
      simp only [Option.some.injEq, Prod.mk.injEq] at hw
      obtain ⟨e1, e2⟩ := hw
      rw [← e1, ← e2]
      have hs := h.st r h1 h2
      cases hl : v.locked r with
      | false =>
        rw [hl] at hs
        refine ⟨_, ?_, h.set h1 h2 true⟩
        simp only [svcCall, Svc.testLock, h.beg, if_pos h1, hs]
        rfl
      | true =>
        rw [hl] at hs
        refine ⟨s, ?_, ?_⟩
        · simp only [svcCall, Svc.testLock, h.beg, if_pos h1, hs]
          rfl
        · rw [← hl, Function.update_eq_self]
          exact h
    · exact absurd hw (by simp)

theorem svcCalls_rel : ∀ (os : List SvcOp) {s : Svc} {v v' : View} {a : List Bool}, SvcRel s v →
    svcWants false v os = some (v', a) → ∃ s', svcCalls s os = some (s', a) ∧ SvcRel s' v' := by
  intro os
  induction os with
  | nil =>
    intro s v v' a h hw
    simp only [svcWants, Option.some.injEq, Prod.mk.injEq] at hw
    obtain ⟨e1, e2⟩ := hw
    exact ⟨s, by rw [← e2]; rfl, e1 ▸ h⟩
  | cons o os ih =>
    intro s v v' a h hw
    simp only [svcWants] at hw
    cases ho : svcWant false v o with
    | none => simp only [ho] at hw; exact absurd hw (by simp)
    | some q =>
      obtain ⟨v1, a1⟩ := q
      simp only [ho] at hw
      cases hos : svcWants false v1 os with
      | none => simp only [hos] at hw; exact absurd hw (by simp)
      | some q =>
        obtain ⟨v2, a2⟩ := q
        simp only [hos, Option.some.injEq, Prod.mk.injEq] at hw
        obtain ⟨e1, e2⟩ := hw
        obtain ⟨s1, c1, h1⟩ := svcCall_rel h ho
        obtain ⟨s2, c2, h2⟩ := ih h1 hos
        exact ⟨s2, by simp only [svcCalls, c1, c2, e2], e1 ▸ h2⟩

theorem svcInit_rel : SvcRel ⟨0, []⟩ View.init :=
  ⟨rfl, Nat.le_refl _, rfl, fun _ _ h => absurd h (by simp [View.init]), fun _ _ => rfl⟩

/-! ### C128 -/

/-- C128 for intervals that are not empty.  Every history of allowed calls uses only locks that are initialized, `TestLock` tells
whether the row was free, and at the end, when no row is locked, the destructor destroys each lock once. -/
theorem C128_life_partial (os : List SvcOp) (v : View) (a : List Bool)
    (hw : svcWants false View.init os = some (v, a)) :
    ∃ s, svcCalls ⟨0, []⟩ os = some (s, a) ∧ s.beg = v.b ∧ s.locks.length = v.e - v.b ∧
      ((∀ r, r < v.e → v.locked r = false) → ∃ s', s.destroyLocks = some s' ∧ ∀ x ∈ s'.locks, x = .dead) := by
  obtain ⟨s, h1, h⟩ := svcCalls_rel os svcInit_rel hw
  refine ⟨s, h1, h.beg, h.len, fun hfree => ?_⟩
  have hall : ∀ x ∈ s.locks, x = .free := by
    intro x hx
    obtain ⟨i, hi⟩ := List.mem_iff_getElem?.1 hx
    have hil : i < s.locks.length := (List.getElem?_eq_some_iff.1 hi).1
    rw [h.len] at hil
    have := h.st (v.b + i) (by omega) (by omega)
    rw [show v.b + i - v.b = i by omega, hi, hfree (v.b + i) (by omega)] at this
    simpa using this
  refine ⟨⟨s.beg, List.replicate s.locks.length .dead⟩, ?_, ?_⟩
  · unfold Svc.destroyLocks
    rw [each_all destroyOne .dead s.locks fun x hx => by rw [hall x hx]; rfl]
  · intro x hx
    exact (List.mem_replicate.1 hx).2

/-- C128 fails when a service with rows gets an interval without rows (`SetInterval(b,b)`, or assignment of an empty service): the
locks are destroyed but stay in the interval, and the destructor destroys them a second time. -/
theorem C128_empty_fails : ¬ ∀ (os : List SvcOp) (v : View) (a : List Bool),
    svcWants true View.init os = some (v, a) → (∀ r, r < v.e → v.locked r = false) →
    ∃ s, svcCalls ⟨0, []⟩ os = some (s, a) ∧ s.destroyLocks ≠ none := by
  intro h
  obtain ⟨s, h1, h2⟩ := h [.setInterval 0 2, .setInterval 0 0] ⟨0, 0, fun _ => false⟩ [] (by
    simp [svcWants, svcWant, View.init]) (fun _ _ => rfl)
  have e : svcCalls ⟨0, []⟩ [.setInterval 0 2, .setInterval 0 0] = some (⟨0, [.dead, .dead]⟩, []) := by decide
  rw [e] at h1
  simp only [Option.some.injEq, Prod.mk.injEq, and_true] at h1
  rw [← h1] at h2
  exact h2 (by decide)

/-- C128, residuals: for a residual without locks `Lock` returns at once as if the row were locked, but `TestLock` says for ever that
it is not, so a loop `while( !R.TestLock(i) )` never ends. -/
theorem C128_test_fails : ¬ ∀ (s : Svc) (row : Nat) (s' : Svc), resLock s row = some s' →
    ∃ s'', resTestLock s row = some (s'', true) := by
  intro h
  obtain ⟨s'', h1⟩ := h ⟨0, []⟩ 0 ⟨0, []⟩ (by decide)
  exact absurd h1 (by simp [resTestLock])

example : (svcCalls ⟨0, []⟩ [.setInterval 3 6, .lock 4, .testLock 4, .testLock 5, .unlock 4, .unlock 5, .setInterval 10 12,
    .testLock 11]) = some (⟨10, [.free, .held]⟩, [false, true, true]) := by decide

example : (svcWants false View.init [.setInterval 3 6, .lock 4, .testLock 4, .testLock 5, .unlock 4, .unlock 5]).map Prod.snd =
    some [false, true] := by
  simp [svcWants, svcWant, View.init]

end Verif.Locks
