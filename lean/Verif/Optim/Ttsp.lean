/-!
Automatic tuning of solver parameters: Source/Solver/ttsp/ttsp.cpp and the search in
Source/Solver/ttsp/ttsp_configuration.cpp.

Modelled: which solvers are tuned, which entry of the configuration the optimizer of a solver is made
from, and which optimizer objects are alive. Not modelled: the file (the entries are given), MPI, the
suggestions themselves (see the other files of this directory).
-/

namespace Verif.Optim.Ttsp

/-- `TTSPConfigurationSolverPrefixEntry` (ttsp_configuration.h L52-59); `params` stands for the list of
parameters -/
structure PrefixE where
  pref : String
  enabled : Bool
  optimizer : String
  capacity : Nat
  params : Nat
  deriving DecidableEq

/-- `TTSPConfigurationSolverEntry` (ttsp_configuration.h L89-93) -/
structure SolverE where
  solver : String
  enabled : Bool
  prefixes : List PrefixE
  deriving DecidableEq

/-- the static data (ttsp.cpp L16-18): the configuration (`none`: null pointer) and two maps by key; `live`
counts the optimizer objects that were made and not deleted -/
structure St where
  conf : Option (List SolverE)
  options : String → Option Bool
  optimizers : String → Option PrefixE
  live : Nat

/-- the key of a solver (ttsp.cpp L52, L66, L76, L90, L105, L168) -/
def key (name pref : String) : String := name ++ ":" ++ pref

/-- before the first call (ttsp.cpp L16-18) -/
def init : St := ⟨none, fun _ => none, fun _ => none, 0⟩

/-- `m[key] = v` -/
def put {α : Type} (m : String → Option α) (k : String) (v : Option α) : String → Option α :=
  fun x => if x = k then v else m x

/-- `Enable` (ttsp.cpp L49-61) -/
def enable (s : St) (name pref : String) : St :=
  { s with options := put s.options (key name pref) (some true) }

/-- `Disable` (ttsp.cpp L63-71) -/
def disable (s : St) (name pref : String) : St :=
  match s.options (key name pref) with
  | none => s
  | some _ => { s with options := put s.options (key name pref) (some false) }

/-- `isEnabled` (ttsp.cpp L73-85) -/
def isEnabled (s : St) (name pref : String) : Bool :=
  match s.options (key name pref) with
  | none => false
  | some b => b

/-- `isDisabled` (ttsp.cpp L87-99) -/
def isDisabled (s : St) (name pref : String) : Bool :=
  match s.options (key name pref) with
  | none => true
  | some b => !b

/-- `Deinitialize` (ttsp.cpp L40-47): the optimizers are dropped, not deleted -/
def deinitialize (s : St) : St := ⟨none, fun _ => none, fun _ => none, s.live⟩

/-- inner loop of `Initialize` (ttsp.cpp L30-34) -/
def enablePrefixes (name : String) : List PrefixE → St → St
  | [], s => s
  | p :: r, s => enablePrefixes name r (if p.enabled then enable s name p.pref else s)

/-- outer loop of `Initialize` (ttsp.cpp L28-36) -/
def enableAll : List SolverE → St → St
  | [], s => s
  | e :: r, s => enableAll r (if e.enabled then enablePrefixes e.solver e.prefixes s else s)

/-- `Initialize` (ttsp.cpp L21-38), with the entries read from the file -/
def start (s : St) (c : List SolverE) : St := enableAll c { deinitialize s with conf := some c }

/-- `FindForSolverAndPrefix` (ttsp_configuration.cpp L420-441); `none`: throws -/
def findEntry (c : List SolverE) (name pref : String) : Option PrefixE :=
  match c.find? (fun e => e.solver == name) with
  | none => none
  | some e => e.prefixes.find? (fun p => p.pref == pref)

/-- types known to `Optimizers::GetOptimizer` (optimizers.cpp L660-670), without the Bayesian one -/
def known (type : String) : Bool := type == "noop" || type == "alternating" || type == "annealing"

/-- `GetOrCreateOptimizer` (ttsp.cpp L103-131); `none`: null configuration, no entry (throws), or the null
optimizer of an unknown type is used (L123) -/
def getOrCreate (s : St) (name pref : String) : Option (PrefixE × St) :=
  match s.optimizers (key name pref) with
  | some e => some (e, s)
  | none =>
    match s.conf with
    | none => none
    | some c =>
      match findEntry c name pref with
      | none => none
      | some e =>
        if known e.optimizer then
          some (e, { s with optimizers := put s.optimizers (key name pref) (some e), live := s.live + 1 })
        else none

/-- `SolverOptimize` (ttsp.cpp L135-150): the entry whose optimizer makes the suggestion, if any -/
def solverOptimize (s : St) (name pref : String) : Option (Option PrefixE × St) :=
  match isEnabled s name pref with
  | false => some (none, s)
  | true =>
    match getOrCreate s name pref with
    | none => none
    | some (e, s') => some (some e, s')

/-- `DestroySavedOptimizer` (ttsp.cpp L165-174) -/
def destroy (s : St) (name pref : String) : St :=
  match s.optimizers (key name pref) with
  | none => s
  | some _ => { s with optimizers := put s.optimizers (key name pref) none, live := s.live - 1 }

/-- calls of the interface -/
inductive Call where
  | initialize_ (c : List SolverE)
  | deinitialize_
  | enable_ (name pref : String)
  | disable_ (name pref : String)
  | optimize_ (name pref : String)
  | destroy_ (name pref : String)

/-- one call -/
def step (s : St) : Call → Option St
  | .initialize_ c => some (start s c)
  | .deinitialize_ => some (deinitialize s)
  | .enable_ n p => some (enable s n p)
  | .disable_ n p => some (disable s n p)
  | .optimize_ n p => (solverOptimize s n p).map (·.2)
  | .destroy_ n p => some (destroy s n p)

/-- a history of calls -/
def run : St → List Call → Option St
  | s, [] => some s
  | s, c :: r =>
    match step s c with
    | none => none
    | some s' => run s' r

/-! ### specification -/

/-- the configuration lists the solver with this prefix, both enabled -/
def Lists (c : List SolverE) (name pref : String) : Prop :=
  ∃ e ∈ c, e.solver = name ∧ e.enabled = true ∧ ∃ p ∈ e.prefixes, p.pref = pref ∧ p.enabled = true

instance (c : List SolverE) (name pref : String) : Decidable (Lists c name pref) := by
  unfold Lists; infer_instance

/-- is the solver tuned after the calls: by the last call that concerns it -/
def on (name pref : String) : Bool → List Call → Bool
  | b, [] => b
  | _, .initialize_ c :: r => on name pref (decide (Lists c name pref)) r
  | _, .deinitialize_ :: r => on name pref false r
  | b, .enable_ n p :: r => on name pref (b || decide (n = name ∧ p = pref)) r
  | b, .disable_ n p :: r => on name pref (b && !decide (n = name ∧ p = pref)) r
  | b, .optimize_ _ _ :: r => on name pref b r
  | b, .destroy_ _ _ :: r => on name pref b r

/-- the solver names of a call -/
def names : Call → List String
  | .initialize_ c => c.map (·.solver)
  | .deinitialize_ => []
  | .enable_ n _ => [n]
  | .disable_ n _ => [n]
  | .optimize_ n _ => [n]
  | .destroy_ n _ => [n]

/-- a name without the separator of the keys -/
def Plain (name : String) : Prop := ':' ∉ name.toList

instance (name : String) : Decidable (Plain name) := by unfold Plain; infer_instance

/-! ### helpers -/

theorem split_inj : ∀ (a b r t : List Char), ':' ∉ a → ':' ∉ b → a ++ ':' :: r = b ++ ':' :: t → a = b ∧ r = t := by
  intro a
  induction a with
  | nil =>
    intro b r t _ hb h
    cases b with
    | nil => simpa using h
    | cons x b =>
      simp only [List.nil_append, List.cons_append, List.cons.injEq] at h
      exact absurd (by rw [← h.1]; simp) hb
  | cons x a ih =>
    intro b r t ha hb h
    cases b with
    | nil =>
      simp only [List.nil_append, List.cons_append, List.cons.injEq] at h
      exact absurd (by rw [h.1]; simp) ha
    | cons y b =>
      simp only [List.cons_append, List.cons.injEq] at h
      have := ih b r t (fun e => ha (by simp [e])) (fun e => hb (by simp [e])) h.2
      exact ⟨by rw [h.1, this.1], this.2⟩

theorem key_inj {n p n' p' : String} (h1 : Plain n) (h2 : Plain n') (h : key n p = key n' p') : n = n' ∧ p = p' := by
  have h' := congrArg String.toList h
  unfold key at h'
  simp only [String.toList_append, List.append_assoc] at h'
  have hc : (":" : String).toList = [':'] := rfl
  rw [hc] at h'
  have := split_inj _ _ _ _ h1 h2 (by simpa using h')
  exact ⟨String.toList_injective this.1, String.toList_injective this.2⟩

/-- the flag of a solver after one `Enable` -/
theorem enable_flag {s : St} {n p name pref : String} (h1 : Plain n) (h2 : Plain name) :
    isEnabled (enable s n p) name pref = (isEnabled s name pref || decide (n = name ∧ p = pref)) := by
  unfold isEnabled enable put
  simp only
  by_cases e : n = name ∧ p = pref
  · rw [e.1, e.2]; simp
  · have hk : ¬ key name pref = key n p := by
      intro hk
      have := key_inj h2 h1 hk
      exact e ⟨this.1.symm, this.2.symm⟩
    rw [if_neg hk]
    simp [e]

theorem disable_flag {s : St} {n p name pref : String} (h1 : Plain n) (h2 : Plain name) :
    isEnabled (disable s n p) name pref = (isEnabled s name pref && !decide (n = name ∧ p = pref)) := by
  unfold disable
  cases ho : s.options (key n p) with
  | none =>
    simp only
    by_cases e : n = name ∧ p = pref
    · unfold isEnabled
      rw [← e.1, ← e.2, ho]; simp
    · simp [e]
  | some b =>
    simp only
    unfold isEnabled put
    simp only
    by_cases e : n = name ∧ p = pref
    · rw [e.1, e.2]; simp
    · have hk : ¬ key name pref = key n p := by
        intro hk
        have := key_inj h2 h1 hk
        exact e ⟨this.1.symm, this.2.symm⟩
      rw [if_neg hk]
      simp [e]

theorem prefixes_flag {n name pref : String} (h1 : Plain n) (h2 : Plain name) : ∀ (ps : List PrefixE) (s : St),
    isEnabled (enablePrefixes n ps s) name pref =
      (isEnabled s name pref || decide (n = name ∧ ∃ p ∈ ps, p.pref = pref ∧ p.enabled = true)) := by
  intro ps
  induction ps with
  | nil => intro s; simp [enablePrefixes]
  | cons p r ih =>
    intro s
    simp only [enablePrefixes]
    rw [ih]
    by_cases he : p.enabled = true
    · rw [if_pos he, enable_flag h1 h2]
      rw [Bool.eq_iff_iff]
      simp only [Bool.or_eq_true, decide_eq_true_eq, List.mem_cons, exists_eq_or_imp]
      constructor
      · rintro ((h | h) | h)
        · exact Or.inl h
        · exact Or.inr ⟨h.1, Or.inl ⟨h.2, he⟩⟩
        · exact Or.inr ⟨h.1, Or.inr h.2⟩
      · rintro (h | ⟨h, h' | h'⟩)
        · exact Or.inl (Or.inl h)
        · exact Or.inl (Or.inr ⟨h, h'.1⟩)
        · exact Or.inr ⟨h, h'⟩
    · rw [if_neg he]
      rw [Bool.eq_iff_iff]
      simp only [Bool.or_eq_true, decide_eq_true_eq, List.mem_cons, exists_eq_or_imp]
      constructor
      · rintro (h | h)
        · exact Or.inl h
        · exact Or.inr ⟨h.1, Or.inr h.2⟩
      · rintro (h | ⟨h, h' | h'⟩)
        · exact Or.inl h
        · exact absurd h'.2 he
        · exact Or.inr ⟨h, h'⟩

theorem all_flag {name pref : String} (h2 : Plain name) : ∀ (c : List SolverE) (s : St), (∀ e ∈ c, Plain e.solver) →
    isEnabled (enableAll c s) name pref = (isEnabled s name pref || decide (Lists c name pref)) := by
  intro c
  induction c with
  | nil => intro s _; simp [enableAll, Lists]
  | cons e r ih =>
    intro s hc
    simp only [enableAll]
    rw [ih _ (fun x hx => hc x (by simp [hx]))]
    have hl : Lists (e :: r) name pref ↔
        (e.solver = name ∧ e.enabled = true ∧ ∃ p ∈ e.prefixes, p.pref = pref ∧ p.enabled = true) ∨ Lists r name pref := by
      simp only [Lists, List.mem_cons, exists_eq_or_imp]
    by_cases he : e.enabled = true
    · rw [if_pos he, prefixes_flag (hc e (by simp)) h2]
      rw [Bool.eq_iff_iff]
      simp only [Bool.or_eq_true, decide_eq_true_eq, hl]
      constructor
      · rintro ((h | h) | h)
        · exact Or.inl h
        · exact Or.inr (Or.inl ⟨h.1, he, h.2⟩)
        · exact Or.inr (Or.inr h)
      · rintro (h | h | h)
        · exact Or.inl (Or.inl h)
        · exact Or.inl (Or.inr ⟨h.1, h.2.2⟩)
        · exact Or.inr h
    · rw [if_neg he]
      rw [Bool.eq_iff_iff]
      simp only [Bool.or_eq_true, decide_eq_true_eq, hl]
      constructor
      · rintro (h | h)
        · exact Or.inl h
        · exact Or.inr (Or.inr h)
      · rintro (h | h | h)
        · exact Or.inl h
        · exact absurd h.2.1 he
        · exact Or.inr h

theorem prefixes_rest (n : String) : ∀ (ps : List PrefixE) (s : St),
    (enablePrefixes n ps s).conf = s.conf ∧ (enablePrefixes n ps s).optimizers = s.optimizers ∧
    (enablePrefixes n ps s).live = s.live := by
  intro ps
  induction ps with
  | nil => intro s; exact ⟨rfl, rfl, rfl⟩
  | cons p r ih =>
    intro s
    simp only [enablePrefixes]
    have := ih (if p.enabled then enable s n p.pref else s)
    refine ⟨this.1.trans ?_, this.2.1.trans ?_, this.2.2.trans ?_⟩ <;> (by_cases he : p.enabled = true <;> simp [he, enable])

theorem all_rest : ∀ (c : List SolverE) (s : St),
    (enableAll c s).conf = s.conf ∧ (enableAll c s).optimizers = s.optimizers ∧ (enableAll c s).live = s.live := by
  intro c
  induction c with
  | nil => intro s; exact ⟨rfl, rfl, rfl⟩
  | cons e r ih =>
    intro s
    simp only [enableAll]
    have := ih (if e.enabled then enablePrefixes e.solver e.prefixes s else s)
    have h2 := prefixes_rest e.solver e.prefixes s
    refine ⟨this.1.trans ?_, this.2.1.trans ?_, this.2.2.trans ?_⟩
    · by_cases he : e.enabled = true <;> simp [he, h2.1]
    · by_cases he : e.enabled = true <;> simp [he, h2.2.1]
    · by_cases he : e.enabled = true <;> simp [he, h2.2.2]

/-- `SolverOptimize` does not change which solvers are tuned -/
theorem optimize_options {s s' : St} {n p : String} {e : Option PrefixE} (h : solverOptimize s n p = some (e, s')) :
    s'.options = s.options ∧ s'.conf = s.conf := by
  unfold solverOptimize at h
  cases hb : isEnabled s n p with
  | false => simp only [hb, Option.some.injEq, Prod.mk.injEq] at h; rw [← h.2]; exact ⟨rfl, rfl⟩
  | true =>
    simp only [hb] at h
    cases hg : getOrCreate s n p with
    | none => simp only [hg] at h; cases h
    | some x =>
      obtain ⟨e', s1⟩ := x
      simp only [hg, Option.some.injEq, Prod.mk.injEq] at h
      rw [← h.2]
      unfold getOrCreate at hg
      cases ho : s.optimizers (key n p) with
      | some e0 => simp only [ho, Option.some.injEq, Prod.mk.injEq] at hg; rw [← hg.2]; exact ⟨rfl, rfl⟩
      | none =>
        simp only [ho] at hg
        cases hc : s.conf with
        | none => simp only [hc] at hg; cases hg
        | some c =>
          simp only [hc] at hg
          cases hf : findEntry c n p with
          | none => simp only [hf] at hg; cases hg
          | some e1 =>
            simp only [hf] at hg
            by_cases k : known e1.optimizer = true
            · rw [if_pos k, Option.some.injEq, Prod.mk.injEq] at hg
              rw [← hg.2]; exact ⟨rfl, hc.symm ▸ rfl⟩
            · rw [if_neg k] at hg; cases hg

theorem destroy_options (s : St) (n p : String) : (destroy s n p).options = s.options ∧ (destroy s n p).conf = s.conf := by
  unfold destroy
  cases s.optimizers (key n p) <;> exact ⟨rfl, rfl⟩

theorem run_flag {name pref : String} (h2 : Plain name) : ∀ (calls : List Call) (s s' : St),
    (∀ c ∈ calls, ∀ n ∈ names c, Plain n) → run s calls = some s' →
    isEnabled s' name pref = on name pref (isEnabled s name pref) calls := by
  intro calls
  induction calls with
  | nil =>
    intro s s' _ h
    simp only [run, Option.some.injEq] at h
    rw [h]; rfl
  | cons c r ih =>
    intro s s' hp h
    simp only [run] at h
    cases hs : step s c with
    | none => simp only [hs] at h; cases h
    | some s1 =>
      simp only [hs] at h
      rw [ih s1 s' (fun c hc => hp c (by simp [hc])) h]
      have hpc := hp c (by simp)
      cases c with
      | initialize_ cf =>
        simp only [step, Option.some.injEq] at hs
        rw [← hs]
        simp only [on, start]
        rw [all_flag h2 cf _ (by intro e he; exact hpc e.solver (by simp only [names]; exact List.mem_map_of_mem he))]
        simp [isEnabled, deinitialize]
      | deinitialize_ =>
        simp only [step, Option.some.injEq] at hs
        rw [← hs]
        rfl
      | enable_ n p =>
        simp only [step, Option.some.injEq] at hs
        rw [← hs]
        simp only [on]
        rw [enable_flag (hpc n (by simp [names])) h2]
      | disable_ n p =>
        simp only [step, Option.some.injEq] at hs
        rw [← hs]
        simp only [on]
        rw [disable_flag (hpc n (by simp [names])) h2]
      | optimize_ n p =>
        simp only [step, Option.map_eq_some_iff] at hs
        obtain ⟨⟨e, s2⟩, h1, h3⟩ := hs
        have h3' : s2 = s1 := h3
        have := optimize_options h1
        rw [h3'] at this
        simp only [on]
        congr 1
        unfold isEnabled
        rw [this.1]
      | destroy_ n p =>
        simp only [step, Option.some.injEq] at hs
        have := destroy_options s n p
        rw [hs] at this
        simp only [on]
        congr 1
        unfold isEnabled
        rw [this.1]

/-- saved optimizers were made from the present configuration -/
def Made (s : St) : Prop :=
  ∀ name pref e, Plain name → s.optimizers (key name pref) = some e →
    ∃ c, s.conf = some c ∧ findEntry c name pref = some e ∧ known e.optimizer = true

theorem made_create {s s1 : St} {n p : String} {e : PrefixE} (hn : Plain n) (hm : Made s)
    (hg : getOrCreate s n p = some (e, s1)) :
    Made s1 ∧ s1.optimizers (key n p) = some e := by
  unfold getOrCreate at hg
  cases ho : s.optimizers (key n p) with
  | some e0 =>
    simp only [ho, Option.some.injEq, Prod.mk.injEq] at hg
    rw [← hg.2, ← hg.1]; exact ⟨hm, ho⟩
  | none =>
    simp only [ho] at hg
    cases hc : s.conf with
    | none => simp only [hc] at hg; cases hg
    | some c =>
      simp only [hc] at hg
      cases hf : findEntry c n p with
      | none => simp only [hf] at hg; cases hg
      | some e1 =>
        simp only [hf] at hg
        by_cases k : known e1.optimizer = true
        · rw [if_pos k, Option.some.injEq, Prod.mk.injEq] at hg
          obtain ⟨g1, g2⟩ := hg
          subst g1
          rw [← g2]
          refine ⟨?_, by simp [put]⟩
          intro name pref e' hname he
          simp only [put] at he
          by_cases hk : key name pref = key n p
          · rw [if_pos hk] at he
            have := key_inj hname hn hk
            cases he
            exact ⟨c, rfl, by rw [this.1, this.2]; exact hf, k⟩
          · rw [if_neg hk] at he
            obtain ⟨c', h1, h2⟩ := hm name pref e' hname he
            rw [hc] at h1
            exact ⟨c', h1, h2⟩
        · rw [if_neg k] at hg; cases hg

theorem made_step {s s' : St} {c : Call} (hp : ∀ n ∈ names c, Plain n) (hm : Made s) (h : step s c = some s') : Made s' := by
  cases c with
  | initialize_ cf =>
    simp only [step, Option.some.injEq] at h
    rw [← h]
    intro name pref e _ he
    unfold start at he
    rw [(all_rest cf _).2.1] at he
    cases he
  | deinitialize_ =>
    simp only [step, Option.some.injEq] at h
    rw [← h]
    intro name pref e _ he
    cases he
  | enable_ n p => simp only [step, Option.some.injEq] at h; rw [← h]; exact hm
  | disable_ n p =>
    simp only [step, Option.some.injEq] at h
    rw [← h]
    unfold disable
    cases s.options (key n p) <;> exact hm
  | optimize_ n p =>
    simp only [step, Option.map_eq_some_iff] at h
    obtain ⟨⟨e, s2⟩, h1, h3⟩ := h
    have h3' : s2 = s' := h3
    rw [h3'] at h1
    unfold solverOptimize at h1
    cases hb : isEnabled s n p with
    | false => simp only [hb, Option.some.injEq, Prod.mk.injEq] at h1; rw [← h1.2]; exact hm
    | true =>
      simp only [hb] at h1
      cases hg : getOrCreate s n p with
      | none => simp only [hg] at h1; cases h1
      | some x =>
        obtain ⟨e', s1⟩ := x
        simp only [hg, Option.some.injEq, Prod.mk.injEq] at h1
        rw [← h1.2]
        exact (made_create (hp n (by simp [names])) hm hg).1
  | destroy_ n p =>
    simp only [step, Option.some.injEq] at h
    rw [← h]
    unfold destroy
    cases s.optimizers (key n p) with
    | none => exact hm
    | some e0 =>
      intro name pref e hname he
      simp only [put] at he
      by_cases hk : key name pref = key n p
      · rw [if_pos hk] at he; cases he
      · rw [if_neg hk] at he; exact hm name pref e hname he

theorem made_run : ∀ (calls : List Call) (s s' : St), (∀ c ∈ calls, ∀ n ∈ names c, Plain n) → Made s →
    run s calls = some s' → Made s' := by
  intro calls
  induction calls with
  | nil => intro s s' _ hm h; simp only [run, Option.some.injEq] at h; rw [← h]; exact hm
  | cons c r ih =>
    intro s s' hp hm h
    simp only [run] at h
    cases hs : step s c with
    | none => simp only [hs] at h; cases h
    | some s1 =>
      simp only [hs] at h
      exact ih s1 s' (fun c hc => hp c (by simp [hc])) (made_step (hp c (by simp)) hm hs) h

theorem findEntry_mem {c : List SolverE} {name pref : String} {e : PrefixE} (h : findEntry c name pref = some e) :
    ∃ x ∈ c, x.solver = name ∧ e ∈ x.prefixes ∧ e.pref = pref := by
  unfold findEntry at h
  cases hf : c.find? (fun e => e.solver == name) with
  | none => simp only [hf] at h; cases h
  | some x =>
    simp only [hf] at h
    have h1 := List.find?_some hf
    have h2 := List.find?_some h
    exact ⟨x, List.mem_of_find?_eq_some hf, by simpa using h1, List.mem_of_find?_eq_some h, by simpa using h2⟩

/-- a history in which solvers are tuned through configurations only: every configuration has one entry per
solver and known types of optimizers -/
def Proper : Call → Prop
  | .initialize_ c => (c.map (·.solver)).Nodup ∧ ∀ e ∈ c, ∀ p ∈ e.prefixes, known p.optimizer = true
  | .enable_ _ _ => False
  | _ => True

instance (c : Call) : Decidable (Proper c) := by cases c <;> unfold Proper <;> infer_instance

/-- tuned solvers are listed in the present configuration, which is proper -/
def Listed (s : St) : Prop :=
  (∀ name pref, Plain name → isEnabled s name pref = true → ∃ c, s.conf = some c ∧ Lists c name pref) ∧
  ∀ c, s.conf = some c → Proper (.initialize_ c)

theorem findEntry_of_lists {c : List SolverE} {name pref : String} (hn : (c.map (·.solver)).Nodup)
    (h : Lists c name pref) : ∃ e, findEntry c name pref = some e := by
  induction c with
  | nil => obtain ⟨e, he, -⟩ := h; cases he
  | cons x r ih =>
    unfold findEntry
    rw [List.map_cons, List.nodup_cons] at hn
    by_cases hx : x.solver = name
    · have hb : (x.solver == name) = true := by simp [hx]
      rw [List.find?_cons_of_pos (p := fun e : SolverE => e.solver == name) hb]
      simp only
      obtain ⟨e, he, h1, h2, p, hp, h3, h4⟩ := h
      rcases List.mem_cons.1 he with he | he
      · rw [he] at hp
        cases hf : x.prefixes.find? (fun p => p.pref == pref) with
        | some q => exact ⟨q, rfl⟩
        | none =>
          have := List.find?_eq_none.1 hf p hp
          simp [h3] at this
      · exact absurd (List.mem_map.2 ⟨e, he, by rw [h1, hx]⟩) hn.1
    · have hb : ¬ (x.solver == name) = true := by simp [hx]
      rw [List.find?_cons_of_neg (p := fun e : SolverE => e.solver == name) hb]
      obtain ⟨e, he, h1, h2⟩ := h
      rcases List.mem_cons.1 he with he | he
      · rw [he] at h1; exact absurd h1 hx
      · obtain ⟨q, hq⟩ := ih hn.2 ⟨e, he, h1, h2⟩
        exact ⟨q, hq⟩

theorem optimize_some {s : St} (hl : Listed s) {name pref : String} (hname : Plain name) :
    ∃ r, solverOptimize s name pref = some r := by
  unfold solverOptimize
  cases hb : isEnabled s name pref with
  | false => exact ⟨_, rfl⟩
  | true =>
    obtain ⟨c, hc, hlist⟩ := hl.1 name pref hname hb
    have hpr : (c.map (·.solver)).Nodup ∧ ∀ e ∈ c, ∀ p ∈ e.prefixes, known p.optimizer = true := hl.2 c hc
    obtain ⟨e, he⟩ := findEntry_of_lists hpr.1 hlist
    obtain ⟨x, hx, -, h2, -⟩ := findEntry_mem he
    have hk := hpr.2 x hx e h2
    simp only
    unfold getOrCreate
    cases ho : s.optimizers (key name pref) with
    | some e0 => exact ⟨_, rfl⟩
    | none =>
      simp only [hc, he]
      rw [if_pos hk]
      exact ⟨_, rfl⟩

theorem listed_step {s s' : St} {c : Call} (hp : ∀ n ∈ names c, Plain n) (hpr : Proper c) (hl : Listed s)
    (h : step s c = some s') : Listed s' := by
  cases c with
  | initialize_ cf =>
    simp only [step, Option.some.injEq] at h
    rw [← h]
    have hc : (start s cf).conf = some cf := (all_rest cf _).1
    refine ⟨?_, ?_⟩
    · intro name pref hname he
      refine ⟨cf, hc, ?_⟩
      unfold start at he
      rw [all_flag hname cf _ (by intro e he; exact hp e.solver (by simp only [names]; exact List.mem_map_of_mem he))] at he
      simpa [isEnabled, deinitialize] using he
    · intro c h'
      rw [hc] at h'
      cases h'
      exact hpr
  | deinitialize_ =>
    simp only [step, Option.some.injEq] at h
    rw [← h]
    refine ⟨?_, ?_⟩
    · intro name pref _ he; cases he
    · intro c h'; cases h'
  | enable_ n p => exact absurd hpr (by simp [Proper])
  | disable_ n p =>
    simp only [step, Option.some.injEq] at h
    have hc : (disable s n p).conf = s.conf := by unfold disable; cases s.options (key n p) <;> rfl
    rw [← h]
    refine ⟨?_, ?_⟩
    · intro name pref hname he
      rw [disable_flag (hp n (by simp [names])) hname] at he
      rw [hc]
      exact hl.1 name pref hname (by simp only [Bool.and_eq_true] at he; exact he.1)
    · rw [hc]; exact hl.2
  | optimize_ n p =>
    simp only [step, Option.map_eq_some_iff] at h
    obtain ⟨⟨e, s2⟩, h1, h3⟩ := h
    have h3' : s2 = s' := h3
    have := optimize_options h1
    rw [h3'] at this
    refine ⟨?_, ?_⟩
    · intro name pref hname he
      rw [this.2]
      exact hl.1 name pref hname (by unfold isEnabled at he ⊢; rw [this.1] at he; exact he)
    · rw [this.2]; exact hl.2
  | destroy_ n p =>
    simp only [step, Option.some.injEq] at h
    have := destroy_options s n p
    rw [h] at this
    refine ⟨?_, ?_⟩
    · intro name pref hname he
      rw [this.2]
      exact hl.1 name pref hname (by unfold isEnabled at he ⊢; rw [this.1] at he; exact he)
    · rw [this.2]; exact hl.2

theorem listed_run : ∀ (calls : List Call) (s : St), (∀ c ∈ calls, ∀ n ∈ names c, Plain n) →
    (∀ c ∈ calls, Proper c) → Listed s → ∃ s', run s calls = some s' := by
  intro calls
  induction calls with
  | nil => intro s _ _ _; exact ⟨s, rfl⟩
  | cons c r ih =>
    intro s hp hpr hl
    simp only [run]
    have hs : ∃ s1, step s c = some s1 := by
      cases c with
      | optimize_ n p =>
        obtain ⟨q, hq⟩ := optimize_some hl (pref := p) (hp (.optimize_ n p) (by simp) n (by simp [names]))
        exact ⟨q.2, by simp [step, hq]⟩
      | _ => exact ⟨_, rfl⟩
    obtain ⟨s1, hs⟩ := hs
    simp only [hs]
    exact ih s1 (fun c hc => hp c (by simp [hc])) (fun c hc => hpr c (by simp [hc]))
      (listed_step (hp c (by simp)) (hpr c (by simp)) hl hs)

/-! ### C137 -/

/-- After any history of calls a solver is tuned exactly as the last call that concerns it says, if no
solver name contains a colon; and the two questions are opposite. -/
theorem C137_enabled_partial (calls : List Call) (s : St) (name pref : String) (hname : Plain name)
    (hp : ∀ c ∈ calls, ∀ n ∈ names c, Plain n) (h : run init calls = some s) :
    isEnabled s name pref = on name pref false calls ∧ isDisabled s name pref = !on name pref false calls := by
  have h1 := run_flag (pref := pref) hname calls init s hp h
  have h0 : isEnabled init name pref = false := rfl
  rw [h0] at h1
  refine ⟨h1, ?_⟩
  rw [← h1]
  unfold isDisabled isEnabled
  cases s.options (key name pref) <;> rfl

def demoConf : List SolverE :=
  [⟨"inner_ilu2", true, [⟨"a", true, "alternating", 15, 1⟩, ⟨"b", false, "noop", 15, 2⟩]⟩,
   ⟨"petsc", false, [⟨"a", true, "annealing", 15, 3⟩]⟩]

def demoCalls : List Call := [.initialize_ demoConf, .enable_ "petsc" "a", .optimize_ "inner_ilu2" "a",
  .disable_ "inner_ilu2" "a", .optimize_ "petsc" "a"]

example : (∀ c ∈ demoCalls, ∀ n ∈ names c, Plain n) ∧
    (run init demoCalls).map (fun s => (isEnabled s "inner_ilu2" "a", isEnabled s "inner_ilu2" "b", isEnabled s "petsc" "a", s.live))
      = some (false, false, true, 2) := by decide +kernel

/-- The code does not keep this for names with a colon: enabling one solver enables another one. -/
theorem C137_enabled_fails : ∃ (n p n' p' : String), (n, p) ≠ (n', p') ∧
    isEnabled (enable init n p) n' p' = true := by
  exact ⟨"s:t", "u", "s", "t:u", by decide +kernel⟩

/-- The optimizer used for a solver was made from an entry of the present configuration for this solver
and prefix. -/
theorem C137_own (calls : List Call) (s s' : St) (name pref : String) (e : PrefixE) (hname : Plain name)
    (hp : ∀ c ∈ calls, ∀ n ∈ names c, Plain n) (h : run init calls = some s)
    (ho : solverOptimize s name pref = some (some e, s')) :
    ∃ c, s.conf = some c ∧ ∃ x ∈ c, x.solver = name ∧ e ∈ x.prefixes ∧ e.pref = pref := by
  have hm : Made s := made_run calls init s hp (by intro n p e _ he; cases he) h
  have hc := (optimize_options ho).2
  unfold solverOptimize at ho
  cases hb : isEnabled s name pref with
  | false => simp only [hb, Option.some.injEq, Prod.mk.injEq] at ho; cases ho.1
  | true =>
    simp only [hb] at ho
    cases hg : getOrCreate s name pref with
    | none => simp only [hg] at ho; cases ho
    | some x =>
      obtain ⟨e', s1⟩ := x
      simp only [hg, Option.some.injEq, Prod.mk.injEq] at ho
      obtain ⟨o1, o2⟩ := ho
      rw [o1, o2] at hg
      obtain ⟨hm1, hk⟩ := made_create hname hm hg
      obtain ⟨c, hc1, hf, -⟩ := hm1 name pref e hname hk
      exact ⟨c, by rw [← hc]; exact hc1, findEntry_mem hf⟩

example : (solverOptimize (start init demoConf) "inner_ilu2" "a").map (·.1) =
    some (some ⟨"a", true, "alternating", 15, 1⟩) := by decide +kernel

/-- No call fails if solvers are enabled by configurations only, with one entry per solver and known types. -/
theorem C137_total_partial (calls : List Call) (hp : ∀ c ∈ calls, ∀ n ∈ names c, Plain n)
    (hpr : ∀ c ∈ calls, Proper c) : ∃ s, run init calls = some s :=
  listed_run calls init hp hpr ⟨(by intro n p _ he; cases he), (by intro c hc; cases hc)⟩

example : ∀ c ∈ [Call.initialize_ demoConf, .optimize_ "inner_ilu2" "a", .disable_ "inner_ilu2" "a", .optimize_ "inner_ilu2" "a",
    .destroy_ "inner_ilu2" "a", .deinitialize_], Proper c ∧ ∀ n ∈ names c, Plain n := by decide +kernel

/-- The code fails for a solver enabled by hand before a configuration was read: the null configuration is
used. -/
theorem C137_null_fails (name pref : String) : run init [.enable_ name pref, .optimize_ name pref] = none := by
  simp [run, step, enable, init, solverOptimize, isEnabled, put, getOrCreate]

/-- The code fails for a solver the configuration enables, if the solver has two entries and the prefix is
in the second one. -/
theorem C137_second_fails : ∃ (c : List SolverE) (name pref : String), Lists c name pref ∧ (∀ e ∈ c, ∀ p ∈ e.prefixes, known p.optimizer = true) ∧
    run init [.initialize_ c, .optimize_ name pref] = none := by
  refine ⟨[⟨"s", true, [⟨"a", true, "noop", 15, 1⟩]⟩, ⟨"s", true, [⟨"b", true, "noop", 15, 2⟩]⟩], "s", "b", by decide +kernel, by decide +kernel, ?_⟩
  have h : (run init [.initialize_ [⟨"s", true, [⟨"a", true, "noop", 15, 1⟩]⟩, ⟨"s", true, [⟨"b", true, "noop", 15, 2⟩]⟩], .optimize_ "s" "b"]).isNone = true := by
    decide +kernel
  exact Option.isNone_iff_eq_none.1 h

/-- The code fails for an unknown type of optimizer in the configuration: the null optimizer is used. -/
theorem C137_type_fails (name pref type : String) (capacity params : Nat) (h : known type = false) :
    run init [.initialize_ [⟨name, true, [⟨pref, true, type, capacity, params⟩]⟩], .optimize_ name pref] = none := by
  simp [run, step, start, enableAll, enablePrefixes, deinitialize, enable, solverOptimize, isEnabled, put, getOrCreate,
    findEntry, h]

example : known "bayes" = false := by decide +kernel

/-- The code loses optimizers: after `Deinitialize` an optimizer that was used is alive and no call can
destroy it. -/
theorem C137_leak_fails : ∃ (calls : List Call) (s : St), run init calls = some s ∧ s.live = 1 ∧
    ∀ name pref, (destroy s name pref).live = 1 := by
  have h : (run init [.initialize_ demoConf, .optimize_ "inner_ilu2" "a", .deinitialize_]).map (fun s => s.live) = some 1 := by
    decide +kernel
  cases hx : run init [.initialize_ demoConf, .optimize_ "inner_ilu2" "a", .deinitialize_] with
  | none => rw [hx] at h; cases h
  | some s =>
    rw [hx] at h
    have hl : s.live = 1 := by simpa using h
    refine ⟨_, s, hx, hl, ?_⟩
    intro name pref
    have ho : s.optimizers = fun _ => none := by
      simp only [run] at hx
      cases h1 : step init (.initialize_ demoConf) with
      | none => simp only [h1] at hx; cases hx
      | some s1 =>
        simp only [h1] at hx
        cases h2 : step s1 (.optimize_ "inner_ilu2" "a") with
        | none => simp only [h2] at hx; cases hx
        | some s2 =>
          simp only [h2] at hx
          have h3 : deinitialize s2 = s := Option.some.inj hx
          rw [← h3]; rfl
    unfold destroy
    rw [ho]
    exact hl

end Verif.Optim.Ttsp
