import Mathlib.Data.List.Basic
import Mathlib.Tactic.ByContra

/-!
# Saved optimizers (C146)

Models `Optimizers` of `/repo/Source/Optimizer/optimizers.cpp` L640-700: available types, creation, the map of saved optimizers. Objects live at
addresses; `delete` of an address that holds no object is `none`.

Simplifications: an optimizer is its name, type and parameters; properties and the capacity of the buffer go with the parameters; addresses are never used
again. `bay`: the program was built with USE_OPTIMIZER_BAYESIAN.
-/

namespace Verif.Optim.Registry

/-- An optimizer: what it was made from. -/
structure Obj (P : Type) where
  name : String
  type : String
  params : List P

/-- The heap and the map `Optimizers::optimizers` (L645): `some none` is a name with a null pointer. -/
structure St (P : Type) where
  objs : Nat → Option (Obj P)
  next : Nat
  names : String → Option (Option Nat)

def init (P : Type) : St P := ⟨fun _ => none, 0, fun _ => none⟩

variable {P : Type}

/-- `GetAvailableOptimizers`, L647-658 -/
def available (bay : Bool) : List String :=
  ["noop", "alternating", "annealing"] ++ (if bay then ["bayesian"] else [])

/-- `IsOptimizerAvailable`, L640-643 -/
def isAvailable (bay : Bool) (type : String) : Bool := (available bay).contains type

/-- a new object -/
def alloc (s : St P) (o : Obj P) : Option Nat × St P :=
  (some s.next, { s with objs := fun i => if i = s.next then some o else s.objs i, next := s.next + 1 })

/-- `GetOptimizer`, L660-670 -/
def getOptimizer (bay : Bool) (s : St P) (name type : String) (params : List P) : Option Nat × St P :=
  if type = "noop" then alloc s ⟨name, type, params⟩
  else if type = "alternating" then alloc s ⟨name, type, params⟩
  else if type = "annealing" then alloc s ⟨name, type, params⟩
  else if bay = true ∧ type = "bayesian" then alloc s ⟨name, type, params⟩
  else (none, s)

/-- `delete`: nothing for the null pointer -/
def destroy (s : St P) : Option Nat → Option (St P)
  | none => some s
  | some i => match s.objs i with
    | none => none
    | some _ => some { s with objs := fun j => if j = i then none else s.objs j }

/-- `SaveOptimizerOrReplace`, L672-687 -/
def save (bay : Bool) (s : St P) (name type : String) (params : List P) : Option (St P) :=
  if params.length = 0 then some s
  else
    let (created, s1) := getOptimizer bay s name type params
    let s2 := match s1.names name with
      | none => some s1
      | some p => destroy s1 p
    s2.map fun s2 => { s2 with names := fun n => if n = name then some created else s2.names n }

/-- `GetSavedOptimizer`, L693-700 -/
def getSaved (s : St P) (name : String) : Option Nat :=
  match s.names name with
  | none => none
  | some p => p

/-- a history of calls of `SaveOptimizerOrReplace` -/
def run (bay : Bool) : List (Obj P) → St P → Option (St P)
  | [], s => some s
  | o :: r, s => (save bay s o.name o.type o.params).bind (run bay r)

/-! ## Specification -/

/-- types of optimizers of a build -/
def Known (bay : Bool) (type : String) : Prop :=
  type = "noop" ∨ type = "alternating" ∨ type = "annealing" ∨ (bay = true ∧ type = "bayesian")

instance (bay : Bool) (type : String) : Decidable (Known bay type) := by unfold Known; infer_instance

/-- the last call for the name that had parameters -/
def lastCall (h : List (Obj P)) (name : String) : Option (Obj P) :=
  (h.filter fun o => o.name = name ∧ o.params ≠ []).getLast?

/-- the optimizer of this name after the history, if there is one -/
def expected (bay : Bool) (h : List (Obj P)) (name : String) : Option (Obj P) :=
  (lastCall h name).bind fun o => if Known bay o.type then some o else none

/-! ## Lemmas -/

structure Inv (bay : Bool) (s : St P) (h : List (Obj P)) : Prop where
  fresh : ∀ i, s.next ≤ i → s.objs i = none
  live : ∀ n i, s.names n = some (some i) → s.objs i ≠ none
  inj : ∀ n n' i, s.names n = some (some i) → s.names n' = some (some i) → n = n'
  owned : ∀ i, s.objs i ≠ none → ∃ n, s.names n = some (some i)
  view : ∀ n, (getSaved s n).bind s.objs = expected bay h n

theorem getOptimizer_known {bay : Bool} {type : String} (h : Known bay type) (s : St P) (name : String) (params : List P) :
    getOptimizer bay s name type params = alloc s ⟨name, type, params⟩ := by
  unfold getOptimizer
  split
  · rfl
  split
  · rfl
  split
  · rfl
  split
  · rfl
  · rename_i h1 h2 h3 h4
    rcases h with h | h | h | h <;> contradiction

theorem getOptimizer_unknown {bay : Bool} {type : String} (h : ¬ Known bay type) (s : St P) (name : String) (params : List P) :
    getOptimizer bay s name type params = (none, s) := by
  simp only [Known, not_or] at h
  simp only [getOptimizer, h.1, h.2.1, h.2.2.1, h.2.2.2, if_false]

theorem lastCall_append (h : List (Obj P)) (o : Obj P) (n : String) :
    lastCall (h ++ [o]) n = if o.name = n ∧ o.params ≠ [] then some o else lastCall h n := by
  unfold lastCall
  rw [List.filter_append]
  by_cases hc : o.name = n ∧ o.params ≠ []
  · rw [if_pos hc]; simp [hc]
  · rw [if_neg hc, List.filter_cons_of_neg (by simpa using hc)]; simp

/-- after the old object is deleted -/
theorem replaced {bay : Bool} {s : St P} {h : List (Obj P)} (I : Inv bay s h) (o : Obj P) (hp : o.params ≠ []) :
    ∃ s', save bay s o.name o.type o.params = some s' ∧ Inv bay s' (h ++ [o]) := by
  have hlen : o.params.length ≠ 0 := fun e => hp (List.length_eq_zero_iff.1 e)
  have hexp : ∀ n, expected bay (h ++ [o]) n =
      if n = o.name then (if Known bay o.type then some o else none) else expected bay h n := by
    intro n
    unfold expected
    rw [lastCall_append]
    by_cases hn : n = o.name
    · subst hn; simp [hp]
    · have : ¬ o.name = n := fun e => hn e.symm
      simp [hn, this]
  -- the address held by the name before
  have hold : ∀ i, s.names o.name = some (some i) → i < s.next := fun i hi => by
    by_contra hc
    exact I.live _ _ hi (I.fresh i (by omega))
  by_cases hk : Known bay o.type
  · cases ho : s.names o.name with
    | none =>
      refine ⟨{ objs := fun i => if i = s.next then some o else s.objs i, next := s.next + 1, names := fun n => if n = o.name then some (some s.next) else s.names n }, ?_, ?_, ?_, ?_, ?_, ?_⟩
      · simp [save, hlen, getOptimizer_known hk, alloc, ho]
      · intro i hi
        have h1 : i ≠ s.next := by simp only at hi; omega
        simp only [h1, if_false]
        exact I.fresh i (by simp only at hi; omega)
      · intro n i hi
        simp only at hi ⊢
        split at hi
        · cases hi; simp
        · split
          · simp
          · exact I.live n i hi
      · intro n n' i h1 h2
        simp only at h1 h2
        split at h1 <;> split at h2
        · simp_all
        · cases h1; exact absurd (I.fresh s.next (Nat.le_refl _)) (I.live n' _ h2)
        · cases h2; exact absurd (I.fresh s.next (Nat.le_refl _)) (I.live n _ h1)
        · exact I.inj n n' i h1 h2
      · intro i hi
        simp only at hi ⊢
        by_cases h1 : i = s.next
        · exact ⟨o.name, by simp [h1]⟩
        · simp only [h1, if_false] at hi
          obtain ⟨n, hn⟩ := I.owned i hi
          have : n ≠ o.name := fun e => by rw [e, ho] at hn; cases hn
          exact ⟨n, by simp [this, hn]⟩
      · intro n
        rw [hexp]
        by_cases hn : n = o.name
        · simp [getSaved, hn, hk]
        · rw [if_neg hn, ← I.view n]
          simp only [getSaved, hn, if_false]
          cases hs : s.names n with
          | none => rfl
          | some p =>
            cases p with
            | none => rfl
            | some i =>
              have : i ≠ s.next := fun e => I.live n i hs (I.fresh i (by omega))
              simp [this]
    | some p =>
      cases p with
      | none =>
        refine ⟨{ objs := fun i => if i = s.next then some o else s.objs i, next := s.next + 1, names := fun n => if n = o.name then some (some s.next) else s.names n }, ?_, ?_, ?_, ?_, ?_, ?_⟩
        · simp [save, hlen, getOptimizer_known hk, alloc, ho, destroy]
        · intro i hi
          have h1 : i ≠ s.next := by simp only at hi; omega
          simp only [h1, if_false]
          exact I.fresh i (by simp only at hi; omega)
        · intro n i hi
          simp only at hi ⊢
          split at hi
          · cases hi; simp
          · split
            · simp
            · exact I.live n i hi
        · intro n n' i h1 h2
          simp only at h1 h2
          split at h1 <;> split at h2
          · simp_all
          · cases h1; exact absurd (I.fresh s.next (Nat.le_refl _)) (I.live n' _ h2)
          · cases h2; exact absurd (I.fresh s.next (Nat.le_refl _)) (I.live n _ h1)
          · exact I.inj n n' i h1 h2
        · intro i hi
          simp only at hi ⊢
          by_cases h1 : i = s.next
          · exact ⟨o.name, by simp [h1]⟩
          · simp only [h1, if_false] at hi
            obtain ⟨n, hn⟩ := I.owned i hi
            have : n ≠ o.name := fun e => by rw [e, ho] at hn; cases hn
            exact ⟨n, by simp [this, hn]⟩
        · intro n
          rw [hexp]
          by_cases hn : n = o.name
          · simp [getSaved, hn, hk]
          · rw [if_neg hn, ← I.view n]
            simp only [getSaved, hn, if_false]
            cases hs : s.names n with
            | none => rfl
            | some p =>
              cases p with
              | none => rfl
              | some i =>
                have : i ≠ s.next := fun e => I.live n i hs (I.fresh i (by omega))
                simp [this]
      | some k =>
        have hkn := hold k ho
        have hkne : k ≠ s.next := by omega
        obtain ⟨ok, hok⟩ := Option.ne_none_iff_exists'.1 (I.live _ _ ho)
        refine ⟨{ objs := fun i => if i = k then none else if i = s.next then some o else s.objs i, next := s.next + 1, names := fun n => if n = o.name then some (some s.next) else s.names n }, ?_, ?_, ?_, ?_, ?_, ?_⟩
        · simp [save, hlen, getOptimizer_known hk, alloc, ho, destroy, hkne, hok]
        · intro i hi
          have h1 : i ≠ s.next := by simp only at hi; omega
          simp only [h1, if_false]
          split
          · rfl
          · exact I.fresh i (by simp only at hi; omega)
        · intro n i hi
          simp only at hi ⊢
          split at hi
          · cases hi
            have : s.next ≠ k := fun e => hkne e.symm
            simp [this]
          · rename_i hn
            have : i ≠ k := fun e => hn (I.inj n o.name k (e ▸ hi) ho)
            simp only [this, if_false]
            split
            · simp
            · exact I.live n i hi
        · intro n n' i h1 h2
          simp only at h1 h2
          split at h1 <;> split at h2
          · simp_all
          · cases h1; exact absurd (I.fresh s.next (Nat.le_refl _)) (I.live n' _ h2)
          · cases h2; exact absurd (I.fresh s.next (Nat.le_refl _)) (I.live n _ h1)
          · exact I.inj n n' i h1 h2
        · intro i hi
          simp only at hi ⊢
          by_cases h1 : i = s.next
          · exact ⟨o.name, by simp [h1]⟩
          · by_cases h2 : i = k
            · simp [h2] at hi
            · simp only [h1, h2, if_false] at hi
              obtain ⟨n, hn⟩ := I.owned i hi
              have : n ≠ o.name := fun e => by rw [e, ho] at hn; cases hn; exact h2 rfl
              exact ⟨n, by simp [this, hn]⟩
        · intro n
          rw [hexp]
          by_cases hn : n = o.name
          · have : s.next ≠ k := fun e => hkne e.symm
            simp [getSaved, hn, hk, this]
          · rw [if_neg hn, ← I.view n]
            simp only [getSaved, hn, if_false]
            cases hs : s.names n with
            | none => rfl
            | some p =>
              cases p with
              | none => rfl
              | some i =>
                have h1 : i ≠ s.next := fun e => I.live n i hs (I.fresh i (by omega))
                have h2 : i ≠ k := fun e => hn (I.inj n o.name k (e ▸ hs) ho)
                simp [h1, h2]
  · -- unknown type: the null pointer is stored
    have core : ∀ objs' : Nat → Option (Obj P), (∀ i, s.names o.name = some (some i) → objs' i = none) →
        (∀ i, s.names o.name ≠ some (some i) → objs' i = s.objs i) →
        Inv bay { s with objs := objs', names := fun n => if n = o.name then some none else s.names n } (h ++ [o]) := by
      intro objs' c1 c2
      have other : ∀ n i, n ≠ o.name → s.names n = some (some i) → objs' i = s.objs i := fun n i hn hi =>
        c2 i fun e => hn (I.inj n o.name i hi e)
      refine ⟨?_, ?_, ?_, ?_, ?_⟩
      · intro i hi
        by_cases e : s.names o.name = some (some i)
        · exact c1 i e
        · simp only [c2 i e]; exact I.fresh i hi
      · intro n i hi
        simp only at hi ⊢
        split at hi
        · cases hi
        · rename_i hn; rw [other n i hn hi]; exact I.live n i hi
      · intro n n' i h1 h2
        simp only at h1 h2
        split at h1
        · cases h1
        · split at h2
          · cases h2
          · exact I.inj n n' i h1 h2
      · intro i hi
        simp only at hi ⊢
        by_cases e : s.names o.name = some (some i)
        · exact absurd (c1 i e) hi
        · rw [c2 i e] at hi
          obtain ⟨n, hn⟩ := I.owned i hi
          have : n ≠ o.name := fun e' => e (e' ▸ hn)
          exact ⟨n, by simp [this, hn]⟩
      · intro n
        rw [hexp]
        by_cases hn : n = o.name
        · simp [getSaved, hn, hk]
        · rw [if_neg hn, ← I.view n]
          simp only [getSaved, hn, if_false]
          cases hs : s.names n with
          | none => rfl
          | some p =>
            cases p with
            | none => rfl
            | some i => simpa using other n i hn hs
    cases ho : s.names o.name with
    | none =>
      exact ⟨_, by simp [save, hlen, getOptimizer_unknown hk, ho], core s.objs (fun i e => by rw [ho] at e; cases e) (fun _ _ => rfl)⟩
    | some p =>
      cases p with
      | none =>
        exact ⟨_, by simp [save, hlen, getOptimizer_unknown hk, ho, destroy],
          core s.objs (fun i e => by rw [ho] at e; cases e) (fun _ _ => rfl)⟩
      | some k =>
        obtain ⟨ok, hok⟩ := Option.ne_none_iff_exists'.1 (I.live _ _ ho)
        refine ⟨_, by simp [save, hlen, getOptimizer_unknown hk, ho, destroy, hok],
          core (fun j => if j = k then none else s.objs j) (fun i e => ?_) (fun i e => ?_)⟩
        · rw [ho] at e; cases e; simp
        · have : i ≠ k := fun h => e (h ▸ ho)
          simp [this]

theorem step_inv {bay : Bool} {s : St P} {h : List (Obj P)} (I : Inv bay s h) (o : Obj P) :
    ∃ s', save bay s o.name o.type o.params = some s' ∧ Inv bay s' (h ++ [o]) := by
  by_cases hp : o.params = []
  · refine ⟨s, by simp [save, hp], I.fresh, I.live, I.inj, I.owned, fun n => ?_⟩
    rw [I.view n]
    unfold expected
    rw [lastCall_append, if_neg (by simp [hp])]
  · exact replaced I o hp

theorem run_inv {bay : Bool} : ∀ (r : List (Obj P)) (s : St P) (h : List (Obj P)), Inv bay s h →
    ∃ s', run bay r s = some s' ∧ Inv bay s' (h ++ r)
  | [], s, h, I => ⟨s, rfl, by simpa using I⟩
  | o :: r, s, h, I => by
    obtain ⟨s1, e1, I1⟩ := step_inv I o
    obtain ⟨s2, e2, I2⟩ := run_inv r s1 _ I1
    exact ⟨s2, by simp [run, e1, e2], by simpa using I2⟩

theorem init_inv (bay : Bool) : Inv bay (init P) [] :=
  ⟨fun _ _ => rfl, fun _ _ h => by simp [init] at h, fun _ _ _ h => by simp [init] at h, fun _ h => by simp [init] at h, fun _ => rfl⟩

/-! ## The property -/

/-- **C146**: after every history of calls, no object having been deleted twice, the saved optimizer of a name is the one made by the last call for
this name with parameters if its type is known, and null otherwise; objects that exist are exactly the saved ones, each saved under one name. -/
theorem C146_saved (bay : Bool) (h : List (Obj P)) : ∃ s, run bay h (init P) = some s ∧
    (∀ n, (∀ o, expected bay h n = some o → ∃ i, getSaved s n = some i ∧ s.objs i = some o) ∧
      (expected bay h n = none → getSaved s n = none)) ∧
    (∀ i, s.objs i ≠ none ↔ ∃ n, getSaved s n = some i) ∧
    (∀ n n' i, getSaved s n = some i → getSaved s n' = some i → n = n') := by
  obtain ⟨s, e, I⟩ := run_inv h (init P) [] (init_inv bay)
  rw [List.nil_append] at I
  have hg : ∀ n i, getSaved s n = some i ↔ s.names n = some (some i) := by
    intro n i
    unfold getSaved
    cases hs : s.names n with
    | none => simp
    | some p => simp
  refine ⟨s, e, fun n => ⟨fun o ho => ?_, fun hn => ?_⟩, fun i => ⟨fun hi => ?_, ?_⟩, fun n n' i h1 h2 =>
    I.inj n n' i ((hg _ _).1 h1) ((hg _ _).1 h2)⟩
  · have := I.view n
    rw [ho] at this
    obtain ⟨i, h1, h2⟩ := Option.bind_eq_some_iff.1 this
    exact ⟨i, h1, h2⟩
  · have := I.view n
    rw [hn] at this
    cases hs : getSaved s n with
    | none => rfl
    | some i =>
      rw [hs] at this
      exact absurd this (I.live n i ((hg _ _).1 hs))
  · obtain ⟨n, hn⟩ := I.owned i hi
    exact ⟨n, (hg _ _).2 hn⟩
  · rintro ⟨n, hn⟩
    exact I.live n i ((hg _ _).1 hn)

/-- **C146**: a type is announced as available if and only if an optimizer of this type can be made. -/
theorem C146_available (bay : Bool) (s : St P) (name type : String) (params : List P) :
    isAvailable bay type = true ↔ (getOptimizer bay s name type params).1 ≠ none := by
  have hk : isAvailable bay type = true ↔ Known bay type := by
    cases bay <;> simp [isAvailable, available, Known]
  rw [hk]
  by_cases h : Known bay type
  · simp [h, getOptimizer_known h, alloc]
  · simp [h, getOptimizer_unknown h]

/-- A call with an unknown type, unlike one without parameters, destroys the optimizer that was saved and leaves a null pointer in its place. -/
theorem C146_unknown_type : ∃ s s' : St Nat, run false [⟨"a", "annealing", [1]⟩] (init Nat) = some s ∧ (getSaved s "a").isSome ∧
    save false s "a" "anealing" [1] = some s' ∧ getSaved s' "a" = none ∧ ∀ i, s'.objs i = none := by
  obtain ⟨s, e, h1, _, _⟩ := C146_saved false [(⟨"a", "annealing", [1]⟩ : Obj Nat)]
  obtain ⟨s', e', h2, h3, _⟩ := C146_saved false [(⟨"a", "annealing", [1]⟩ : Obj Nat), ⟨"a", "anealing", [1]⟩]
  obtain ⟨i, hi, _⟩ := (h1 "a").1 ⟨"a", "annealing", [1]⟩ (by simp [expected, lastCall, Known])
  refine ⟨s, s', e, by simp [hi], ?_, (h2 "a").2 (by simp [expected, lastCall, Known]), fun k => ?_⟩
  · simp only [run, Option.bind_eq_some_iff] at e e'
    obtain ⟨a, ha, hb⟩ := e
    obtain ⟨a', ha', b', hb', hc'⟩ := e'
    cases hb; cases hc'
    rw [ha] at ha'; cases ha'
    exact hb'
  · by_contra hk
    obtain ⟨n, hn⟩ := (h3 k).1 hk
    have : expected false [(⟨"a", "annealing", [1]⟩ : Obj Nat), ⟨"a", "anealing", [1]⟩] n = none := by
      by_cases hna : n = "a"
      · simp [expected, lastCall, Known, hna]
      · have : ¬ "a" = n := fun h => hna h.symm
        simp [expected, lastCall, this]
    rw [(h2 n).2 this] at hn
    cases hn

/-- Two names, a replacement, a call without parameters. -/
example : expected false [⟨"a", "noop", [1]⟩, ⟨"b", "annealing", [2]⟩, ⟨"a", "alternating", [3]⟩, ⟨"a", "noop", []⟩] "a"
    = some (⟨"a", "alternating", [3]⟩ : Obj Nat) := by
  simp [expected, lastCall, Known]

end Verif.Optim.Registry
