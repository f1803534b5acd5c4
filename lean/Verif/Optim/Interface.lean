import Verif.Optim.Buffer

/-!
The common part of the optimizers: Source/Optimizer/optimizers.cpp, class `OptimizerInterface`, with the
two virtual functions as parameters, and the optimizer that changes nothing
(Source/Optimizer/optimizers/noop/noop.cpp).

Not modelled: printing, names, properties.
-/

namespace Verif.Optim

/-- `OptimizationParametersSuggestion` (inmost_optimizer.h L181-186) -/
structure Sugg (K : Type) where
  changed : List (Nat × K)
  before : List (Point K)
  mBefore : K
  after : List (Point K)
  deriving DecidableEq

/-- The virtual functions of an optimizer (inmost_optimizer.h L399-401); `σ` is the data of the derived
class. `suggest` is `AlgorithmMakeSuggestion`, which may change `mutable` fields; `accept` is
`UpdateSpaceWithLatestResults` with the newest result. `none`: exception or undefined behaviour. -/
structure Algo (K σ : Type) where
  suggest : Params K → σ → Option (List (Nat × K) × σ)
  accept : Params K → Result K → σ → Option (Bool × Params K × σ)

/-- `OptimizerInterface` (inmost_optimizer.h L379-397) -/
structure Opt (K σ : Type) where
  params : Params K
  capacity : Nat
  results : List (Result K)
  restart : Bool
  maxFails : Nat
  fails : Nat
  last : Option (Sugg K)
  alg : σ

/-- constructor (inmost_optimizer.h L384-388, L404-405). Simplified: `max_fails` starts as the largest
`size_t`; it is not used before `SetRestartStrategy` sets it, so 0 is written here. -/
def Opt.new {K σ : Type} (params : Params K) (capacity : Nat) (alg : σ) : Opt K σ :=
  ⟨params, capacity, [], false, 0, 0, none, alg⟩

/-- `OptimizerInterface::SetRestartStrategy` (optimizers.cpp L631-634) -/
def setRestartStrategy {K σ : Type} (t : Opt K σ) (restart : Bool) (maxFails : Nat) : Opt K σ :=
  { t with restart := restart, maxFails := maxFails }

/-- the base `UpdateSpaceWithLatestResults` (optimizers.cpp L490-496); the buffer is not empty, the
result was just pushed (L532) -/
def baseAccept {K σ : Type} (p : Params K) (r : Result K) (s : σ) : Option (Bool × Params K × σ) :=
  match update p r.changed r.mAfter with
  | none => none
  | some p' => some (true, p', s)

/-- `NoopOptimizer` (noop.cpp L12-14, L9-10); `none`: `at(0)` throws -/
def noop {K : Type} : Algo K Unit where
  suggest := fun p s =>
    match p.entries[0]? with
    | none => none
    | some e => some ([(0, e.1.dflt)], s)
  accept := baseAccept

/-- `OptimizerInterface::Suggest` (optimizers.cpp L498-527) -/
def suggest {K σ : Type} (pow10 : K → K) (A : Algo K σ) (t : Opt K σ) : Option (Sugg K × Opt K σ) :=
  match A.suggest t.params t.alg with
  | none => none
  | some (changed, alg) =>
    let s : Sugg K := ⟨changed, getPoints pow10 t.params, t.params.metrics, withChanged pow10 t.params changed⟩
    some (s, { t with last := some s, alg := alg })

section
variable {K σ : Type} [LinearOrder K]

/-- `OptimizerInterface::RestartWithBestStrategy` (optimizers.cpp L479-488). `none`: the range of
`min_element` is longer than the buffer, or the chosen result is removed by `push` (L484) and read
afterwards (L485). Simplified: that `push_back` formally invalidates the iterator `min` in every case
is not counted as an error. -/
def restartWithBest (t : Opt K σ) : Option (Opt K σ) :=
  if t.results.length < t.maxFails then none
  else
    let k := minElement (fun l r : Result K => decide (l.mAfter < r.mAfter)) ((newestFirst t.results).take t.maxFails)
    match atIndex t.results k with
    | none => none
    | some best =>
      match push t.capacity t.results best with
      | none => none
      | some results =>
        if t.results.length = t.capacity ∧ k + 1 = t.capacity then none
        else
          match update t.params best.changed best.mAfter with
          | none => none
          | some p => some { t with results := results, params := p, fails := 0 }

/-- end of `SaveResult` (optimizers.cpp L581-591) -/
def checkRestart (t : Opt K σ) : Option (Opt K σ) :=
  if t.fails > t.maxFails ∧ t.restart = true then restartWithBest t else some t

/-- `is_good && UpdateSpaceWithLatestResults()` and the count of failures (optimizers.cpp L574-579) -/
def applyResult (A : Algo K σ) (t : Opt K σ) (r : Result K) : Option (Opt K σ) :=
  match r.good with
  | false => some { t with fails := t.fails + 1 }
  | true =>
    match A.accept t.params r t.alg with
    | none => none
    | some (true, p, a) => some { t with params := p, alg := a, fails := 0 }
    | some (false, p, a) => some { t with params := p, alg := a, fails := t.fails + 1 }

/-- `OptimizerInterface::SaveResult(changed, before, metrics_before, after, metrics_after, is_good)`
(optimizers.cpp L529-592) -/
def saveFull (A : Algo K σ) (t : Opt K σ) (r : Result K) : Option (Opt K σ) :=
  match push t.capacity t.results r with
  | none => none
  | some results =>
    match applyResult A { t with results := results } r with
    | none => none
    | some t' => checkRestart t'

/-- `OptimizerInterface::SaveResult(suggestion, metrics, is_good)` (optimizers.cpp L594-601) -/
def saveResult (pow10 : K → K) (A : Algo K σ) (t : Opt K σ) (s : Sugg K) (m : K) (good : Bool) : Option (Opt K σ) :=
  saveFull A t ⟨s.changed, getPoints pow10 t.params, t.params.metrics, s.after, m, good⟩

/-- One use of an optimizer: `Suggest`, then `SaveResult` of this suggestion with the measured metrics -/
def trial (pow10 : K → K) (A : Algo K σ) (t : Opt K σ) (m : K) (good : Bool) : Option (Sugg K × Opt K σ) :=
  match suggest pow10 A t with
  | none => none
  | some (s, t1) =>
    match saveResult pow10 A t1 s m good with
    | none => none
    | some t' => some (s, t')

/-- A sequence of uses; the suggestions are returned in order. -/
def trials (pow10 : K → K) (A : Algo K σ) : Opt K σ → List (K × Bool) → Option (List (Sugg K) × Opt K σ)
  | t, [] => some ([], t)
  | t, (m, good) :: r =>
    match trial pow10 A t m good with
    | none => none
    | some (s, t') =>
      match trials pow10 A t' r with
      | none => none
      | some (ss, t'') => some (s :: ss, t'')

/-- states met in any history of `Suggest`, uses and `SetRestartStrategy` -/
inductive Reach (pow10 : K → K) (A : Algo K σ) (t0 : Opt K σ) : Opt K σ → Prop where
  | start : Reach pow10 A t0 t0
  | suggest {t s t'} : Reach pow10 A t0 t → Verif.Optim.suggest pow10 A t = some (s, t') → Reach pow10 A t0 t'
  | trial {t m good s t'} : Reach pow10 A t0 t → Verif.Optim.trial pow10 A t m good = some (s, t') →
      Reach pow10 A t0 t'
  | strategy {t} (restart : Bool) (maxFails : Nat) : Reach pow10 A t0 t →
      Reach pow10 A t0 (setRestartStrategy t restart maxFails)

/-! ### what is assumed of the algorithm -/

/-- An algorithm that changes every parameter at most once, leaves the parameters alone when it
declines a result, and otherwise applies the changes it suggested. `I` is an invariant of its data. -/
structure Faithful (A : Algo K σ) (I : List (Param K) → σ → Prop) : Prop where
  nodup : ∀ p s ch s1, A.suggest p s = some (ch, s1) → (ch.map (·.1)).Nodup
  declined : ∀ p r s p' s', A.accept p r s = some (false, p', s') → p' = p
  accepted : ∀ p s ch s1 r p' s', I (p.entries.map (·.1)) s → A.suggest p s = some (ch, s1) →
    r.changed = ch → A.accept p r s1 = some (true, p', s') → update p ch r.mAfter = some p'
  suggest_inv : ∀ p s ch s1, I (p.entries.map (·.1)) s → A.suggest p s = some (ch, s1) → I (p.entries.map (·.1)) s1
  accept_inv : ∀ p s ch s1 r b p' s', I (p.entries.map (·.1)) s → A.suggest p s = some (ch, s1) →
    r.changed = ch → A.accept p r s1 = some (b, p', s') → I (p.entries.map (·.1)) s'

/-! ### helpers -/

omit [LinearOrder K] in
theorem setEntries_params : ∀ (ch : List (Nat × K)) (es es' : List (Param K × K)),
    setEntries es ch = some es' → es'.map (·.1) = es.map (·.1) := by
  intro ch
  induction ch with
  | nil => intro es es' h; simp only [setEntries, Option.some.injEq] at h; rw [h]
  | cons c r ih =>
    intro es es' h
    simp only [setEntries] at h
    cases hs : setEntry es c.1 c.2 with
    | none => simp only [hs] at h; cases h
    | some em =>
      simp only [hs] at h
      obtain ⟨e, he, hem⟩ := setEntry_some hs
      rw [ih em es' h, hem]
      rw [List.map_set]
      apply List.ext_getElem?
      intro i
      rw [List.getElem?_set]
      by_cases c1 : c.1 = i
      · subst c1
        simp only [if_true, List.length_map, List.getElem?_map, he, Option.map_some]
        rw [if_pos (by rw [List.getElem?_eq_some_iff] at he; exact he.1)]
      · rw [if_neg c1]

omit [LinearOrder K] in
theorem update_params {p p' : Params K} {ch : List (Nat × K)} {m : K} (h : update p ch m = some p') :
    p'.entries.map (·.1) = p.entries.map (·.1) := by
  unfold update at h
  cases hs : setEntries p.entries ch with
  | none => simp only [hs] at h; cases h
  | some es =>
    simp only [hs, Option.some.injEq] at h
    subst h
    exact setEntries_params ch _ _ hs

omit [LinearOrder K] in
theorem suggest_some {pow10 : K → K} {A : Algo K σ} {t t1 : Opt K σ} {s : Sugg K} (h : suggest pow10 A t = some (s, t1)) :
    ∃ alg, A.suggest t.params t.alg = some (s.changed, alg) ∧ t1 = { t with last := some s, alg := alg } ∧
      s = ⟨s.changed, getPoints pow10 t.params, t.params.metrics, withChanged pow10 t.params s.changed⟩ := by
  unfold suggest at h
  cases ha : A.suggest t.params t.alg with
  | none => simp only [ha] at h; cases h
  | some x =>
    obtain ⟨ch, alg⟩ := x
    simp only [ha, Option.some.injEq, Prod.mk.injEq] at h
    obtain ⟨h1, h2⟩ := h
    subst h1
    exact ⟨alg, rfl, h2.symm, rfl⟩

omit [LinearOrder K] in
/-- the newest results after a push -/
theorem push_newest {R : Type} {capacity : Nat} {b b' : List R} {r : R} (h : push capacity b r = some b') :
    ∃ tl, newestFirst b' = r :: tl ∧ (tl = newestFirst b ∨ (b.length = capacity ∧ tl = (newestFirst b).take (capacity - 1))) := by
  unfold push at h
  by_cases e : b.length = capacity
  · rw [if_pos e] at h
    cases b with
    | nil => simp only at h; cases h
    | cons x t =>
      simp only [Option.some.injEq] at h
      subst h
      refine ⟨t.reverse, by simp [newestFirst], Or.inr ⟨e, ?_⟩⟩
      have : capacity - 1 = t.reverse.length := by simp at e ⊢; omega
      simp only [newestFirst, List.reverse_cons]
      rw [this, List.take_left]
  · rw [if_neg e, Option.some.injEq] at h
    subst h
    exact ⟨b.reverse, by simp [newestFirst], Or.inl rfl⟩

omit [LinearOrder K] in
theorem push_at {R : Type} {capacity : Nat} {b b' : List R} {r x : R} {k : Nat} (h : push capacity b r = some b')
    (hx : atIndex b' (k + 1) = some x) : atIndex b k = some x := by
  obtain ⟨tl, h1, h2⟩ := push_newest h
  unfold atIndex at hx ⊢
  rw [h1, List.getElem?_cons_succ] at hx
  rcases h2 with e | ⟨-, e⟩
  · rw [← e]; exact hx
  · rw [e] at hx
    rw [List.getElem?_eq_some_iff] at hx
    obtain ⟨hl, hx⟩ := hx
    rw [List.getElem_take] at hx
    rw [← hx, List.getElem?_eq_getElem]

omit [LinearOrder K] in
theorem push_at_zero {R : Type} {capacity : Nat} {b b' : List R} {r x : R} (h : push capacity b r = some b')
    (hx : atIndex b' 0 = some x) : x = r := by
  obtain ⟨tl, h1, -⟩ := push_newest h
  unfold atIndex at hx
  rw [h1] at hx
  simpa using hx.symm

/-- the results since the last accepted one were all measured at the current point -/
def Recent (pow10 : K → K) (t : Opt K σ) : Prop :=
  ∀ k r, k < t.fails → atIndex t.results k = some r →
    r.after = withChanged pow10 t.params r.changed ∧ (r.changed.map (·.1)).Nodup

theorem restart_spec {t t' : Opt K σ} (h : restartWithBest t = some t') :
    ∃ best results k, atIndex t.results k = some best ∧ push t.capacity t.results best = some results ∧
      k = minElement (fun l r : Result K => decide (l.mAfter < r.mAfter)) ((newestFirst t.results).take t.maxFails) ∧
      t.maxFails ≤ t.results.length ∧ ¬ (t.results.length = t.capacity ∧ k + 1 = t.capacity) ∧
      update t.params best.changed best.mAfter = some t'.params ∧ t'.alg = t.alg ∧ t'.fails = 0 ∧
      t'.results = results := by
  unfold restartWithBest at h
  by_cases e : t.results.length < t.maxFails
  · rw [if_pos e] at h; cases h
  · rw [if_neg e] at h
    simp only at h
    cases ha : atIndex t.results (minElement (fun l r : Result K => decide (l.mAfter < r.mAfter)) ((newestFirst t.results).take t.maxFails)) with
    | none => simp only [ha] at h; cases h
    | some best =>
      simp only [ha] at h
      cases hp : push t.capacity t.results best with
      | none => simp only [hp] at h; cases h
      | some results =>
        simp only [hp] at h
        by_cases c : t.results.length = t.capacity ∧ minElement (fun l r : Result K => decide (l.mAfter < r.mAfter)) ((newestFirst t.results).take t.maxFails) + 1 = t.capacity
        · rw [if_pos c] at h; cases h
        · rw [if_neg c] at h
          cases hu : update t.params best.changed best.mAfter with
          | none => simp only [hu] at h; cases h
          | some p =>
            simp only [hu, Option.some.injEq] at h
            subst h
            exact ⟨best, results, _, ha, hp, rfl, by omega, c, hu, rfl, rfl, rfl⟩

/-- the two ways a result can be taken before the check for a restart -/
theorem apply_cases {A : Algo K σ} {I : List (Param K) → σ → Prop} (F : Faithful A I) {t t1 : Opt K σ} {r : Result K}
    (h : applyResult A t r = some t1) :
    t1.results = t.results ∧ t1.restart = t.restart ∧ t1.maxFails = t.maxFails ∧ t1.capacity = t.capacity ∧
    ((t1.params = t.params ∧ t1.fails = t.fails + 1) ∨
     (r.good = true ∧ t1.fails = 0 ∧ ∃ a, A.accept t.params r t.alg = some (true, t1.params, a) ∧ t1.alg = a)) := by
  unfold applyResult at h
  cases hg : r.good with
  | false =>
    simp only [hg, Option.some.injEq] at h
    subst h
    exact ⟨rfl, rfl, rfl, rfl, Or.inl ⟨rfl, rfl⟩⟩
  | true =>
    simp only [hg] at h
    cases ha : A.accept t.params r t.alg with
    | none => simp only [ha] at h; cases h
    | some x =>
      obtain ⟨b, p, a⟩ := x
      cases b with
      | true =>
        simp only [ha, Option.some.injEq] at h
        subst h
        exact ⟨rfl, rfl, rfl, rfl, Or.inr ⟨rfl, rfl, a, rfl, rfl⟩⟩
      | false =>
        simp only [ha, Option.some.injEq] at h
        subst h
        exact ⟨rfl, rfl, rfl, rfl, Or.inl ⟨F.declined _ _ _ _ _ ha, rfl⟩⟩

theorem apply_alg {A : Algo K σ} {I : List (Param K) → σ → Prop} (F : Faithful A I) {t t1 : Opt K σ} {r : Result K}
    {s : σ} {ch : List (Nat × K)} (hI : I (t.params.entries.map (·.1)) s) (hs : A.suggest t.params s = some (ch, t.alg))
    (hrc : r.changed = ch) (h : applyResult A t r = some t1) : I (t.params.entries.map (·.1)) t1.alg := by
  unfold applyResult at h
  cases hg : r.good with
  | false =>
    simp only [hg, Option.some.injEq] at h
    subst h
    exact F.suggest_inv _ _ _ _ hI hs
  | true =>
    simp only [hg] at h
    cases ha : A.accept t.params r t.alg with
    | none => simp only [ha] at h; cases h
    | some x =>
      obtain ⟨b, p, a⟩ := x
      have := F.accept_inv _ _ _ _ _ _ _ _ hI hs hrc ha
      cases b <;> simp only [ha, Option.some.injEq] at h <;> subst h <;> exact this

/-- the parts of a use -/
theorem trial_parts {pow10 : K → K} {A : Algo K σ} {t t' : Opt K σ} {m : K} {good : Bool} {s : Sugg K}
    (h : trial pow10 A t m good = some (s, t')) :
    ∃ alg results t2, A.suggest t.params t.alg = some (s.changed, alg) ∧
      s = ⟨s.changed, getPoints pow10 t.params, t.params.metrics, withChanged pow10 t.params s.changed⟩ ∧
      push t.capacity t.results ⟨s.changed, getPoints pow10 t.params, t.params.metrics, s.after, m, good⟩ = some results ∧
      applyResult A { t with last := some s, alg := alg, results := results }
        ⟨s.changed, getPoints pow10 t.params, t.params.metrics, s.after, m, good⟩ = some t2 ∧
      checkRestart t2 = some t' := by
  unfold trial at h
  cases hs : suggest pow10 A t with
  | none => simp only [hs] at h; cases h
  | some x =>
    obtain ⟨s', t1⟩ := x
    simp only [hs] at h
    cases hv : saveResult pow10 A t1 s' m good with
    | none => simp only [hv] at h; cases h
    | some t'' =>
      simp only [hv, Option.some.injEq, Prod.mk.injEq] at h
      obtain ⟨h1, h2⟩ := h
      subst h1; subst h2
      obtain ⟨alg, ha, ht1, hsu⟩ := suggest_some hs
      subst ht1
      unfold saveResult saveFull at hv
      simp only at hv
      cases hp : push t.capacity t.results (⟨s'.changed, getPoints pow10 t.params, t.params.metrics, s'.after, m, good⟩ : Result K) with
      | none => simp only [hp] at hv; cases hv
      | some results =>
        simp only [hp] at hv
        cases hap : applyResult A { t with last := some s', alg := alg, results := results }
            ⟨s'.changed, getPoints pow10 t.params, t.params.metrics, s'.after, m, good⟩ with
        | none => simp only [hap] at hv; cases hv
        | some t2 =>
          simp only [hap] at hv
          exact ⟨alg, results, t2, ha, hsu, rfl, hap, hv⟩

omit [LinearOrder K] in
theorem recent_push {pow10 : K → K} {t : Opt K σ} {results : List (Result K)} {r : Result K}
    (hR : Recent pow10 t) (hp : push t.capacity t.results r = some results)
    (hr : r.after = withChanged pow10 t.params r.changed ∧ (r.changed.map (·.1)).Nodup)
    {t2 : Opt K σ} (e1 : t2.params = t.params) (e2 : t2.results = results) (e3 : t2.fails = t.fails + 1) :
    Recent pow10 t2 := by
  intro k x hk hx
  rw [e2] at hx
  rw [e1]
  cases k with
  | zero => rw [push_at_zero hp hx]; exact hr
  | succ k =>
    rw [e3] at hk
    exact hR k x (by omega) (push_at hp hx)

theorem reach_inv {pow10 : K → K} {A : Algo K σ} {I : List (Param K) → σ → Prop} (F : Faithful A I) {t0 : Opt K σ}
    (hI : I (t0.params.entries.map (·.1)) t0.alg) (hf : t0.fails = 0) {t : Opt K σ} (h : Reach pow10 A t0 t) :
    I (t.params.entries.map (·.1)) t.alg ∧ Recent pow10 t := by
  induction h with
  | start => exact ⟨hI, fun k r hk => by rw [hf] at hk; omega⟩
  | suggest _ hs ih =>
    obtain ⟨alg, ha, ht1, -⟩ := suggest_some hs
    subst ht1
    exact ⟨F.suggest_inv _ _ _ _ ih.1 ha, ih.2⟩
  | strategy restart maxFails _ ih => exact ih
  | @trial t m good s t' _ hs ih =>
    obtain ⟨alg, results, t2, ha, hsu, hp, hap, hc⟩ := trial_parts hs
    have hr : s.after = withChanged pow10 t.params s.changed := by rw [hsu]
    have hnd := F.nodup _ _ _ _ ha
    have hal := apply_alg F (s := t.alg) (ch := s.changed) (by exact ih.1) (by exact ha) rfl hap
    obtain ⟨c1, -, -, -, c5⟩ := apply_cases F hap
    have h2 : I (t2.params.entries.map (·.1)) t2.alg ∧ Recent pow10 t2 := by
      rcases c5 with ⟨e1, e2⟩ | ⟨-, e2, a, e3, e4⟩
      · refine ⟨by rw [e1]; exact hal, recent_push ih.2 hp ⟨hr, hnd⟩ e1 c1 e2⟩
      · have hu := F.accepted _ _ _ _ _ _ _ ih.1 ha rfl e3
        refine ⟨by rw [update_params hu]; exact hal, ?_⟩
        intro k r hk
        rw [e2] at hk; omega
    unfold checkRestart at hc
    by_cases e : t2.fails > t2.maxFails ∧ t2.restart = true
    · rw [if_pos e] at hc
      obtain ⟨best, res, k, -, -, -, -, -, hu, hal2, hf2, -⟩ := restart_spec hc
      refine ⟨by rw [update_params hu, hal2]; exact h2.1, ?_⟩
      intro k r hk
      rw [hf2] at hk; omega
    · rw [if_neg e, Option.some.injEq] at hc
      rw [← hc]; exact h2

theorem noop_faithful : Faithful (noop (K := K)) (fun _ _ => True) where
  nodup := by
    intro p s ch s1 h
    simp only [noop] at h
    cases he : p.entries[0]? with
    | none => simp only [he] at h; cases h
    | some e =>
      simp only [he, Option.some.injEq, Prod.mk.injEq] at h
      rw [← h.1]; simp
  declined := by
    intro p r s p' s' h
    simp only [noop, baseAccept] at h
    cases hu : update p r.changed r.mAfter with
    | none => simp only [hu] at h; cases h
    | some q => simp [hu] at h
  accepted := by
    intro p s ch s1 r p' s' _ _ hr h
    simp only [noop, baseAccept] at h
    cases hu : update p r.changed r.mAfter with
    | none => simp only [hu] at h; cases h
    | some q =>
      simp only [hu, Option.some.injEq, Prod.mk.injEq, true_and] at h
      rw [← hr, hu, h.1]
  suggest_inv := by intros; trivial
  accept_inv := by intros; trivial

/-! ### C134 -/

/-- One use without a restart: the points in use and their metrics stay, or they become the suggested
points with the measured metrics, and then the result was marked good. -/
theorem C134_use (pow10 : K → K) (A : Algo K σ) (I : List (Param K) → σ → Prop) (F : Faithful A I)
    (t t' : Opt K σ) (hI : I (t.params.entries.map (·.1)) t.alg) (hr : t.restart = false)
    (m : K) (good : Bool) (s : Sugg K) (h : trial pow10 A t m good = some (s, t')) :
    (getPoints pow10 t'.params = getPoints pow10 t.params ∧ t'.params.metrics = t.params.metrics) ∨
    (getPoints pow10 t'.params = s.after ∧ t'.params.metrics = m ∧ good = true) := by
  obtain ⟨alg, results, t2, ha, hsu, hp, hap, hc⟩ := trial_parts h
  obtain ⟨-, c2, -, -, c5⟩ := apply_cases F hap
  have hc2 : t2 = t' := by
    unfold checkRestart at hc
    rw [if_neg (by rw [c2]; simp [hr])] at hc
    exact Option.some.inj hc
  rw [← hc2]
  rcases c5 with ⟨e1, -⟩ | ⟨hg, -, a, e3, -⟩
  · left; rw [e1]; exact ⟨rfl, rfl⟩
  · right
    have hu := F.accepted _ _ _ _ _ _ _ hI ha rfl e3
    have := C133_announced_partial pow10 _ _ _ _ hu (F.nodup _ _ _ _ ha)
    refine ⟨?_, this.2, hg⟩
    rw [this.1, hsu]

/-- Whatever the history of uses without restarts, the points in use are those the optimizer was made
with, or those of a use whose result was marked good, with the metrics measured for them. -/
theorem C134_current (pow10 : K → K) (A : Algo K σ) (I : List (Param K) → σ → Prop) (F : Faithful A I)
    (ms : List (K × Bool)) : ∀ (t t' : Opt K σ) (ss : List (Sugg K)), I (t.params.entries.map (·.1)) t.alg →
    t.restart = false → trials pow10 A t ms = some (ss, t') →
    (getPoints pow10 t'.params = getPoints pow10 t.params ∧ t'.params.metrics = t.params.metrics) ∨
    (∃ (i : Nat) (s : Sugg K) (m : K), ss[i]? = some s ∧ ms[i]? = some (m, true) ∧
      getPoints pow10 t'.params = s.after ∧ t'.params.metrics = m) := by
  induction ms with
  | nil =>
    intro t t' ss hI hr h
    simp only [trials, Option.some.injEq, Prod.mk.injEq] at h
    rw [h.2]; exact Or.inl ⟨rfl, rfl⟩
  | cons x r ih =>
    intro t t' ss hI hr h
    obtain ⟨m, good⟩ := x
    simp only [trials] at h
    cases ht : trial pow10 A t m good with
    | none => simp only [ht] at h; cases h
    | some y =>
      obtain ⟨s, t1⟩ := y
      simp only [ht] at h
      cases hts : trials pow10 A t1 r with
      | none => simp only [hts] at h; cases h
      | some z =>
        obtain ⟨ss', t2⟩ := z
        simp only [hts, Option.some.injEq, Prod.mk.injEq] at h
        obtain ⟨h1, h2⟩ := h
        subst h1; subst h2
        obtain ⟨alg, results, t2', ha, hsu, hp, hap, hc⟩ := trial_parts ht
        obtain ⟨-, c2, -, -, c5⟩ := apply_cases F hap
        have hc2 : t2' = t1 := by
          unfold checkRestart at hc
          rw [if_neg (by rw [c2]; simp [hr])] at hc
          exact Option.some.inj hc
        have hal := apply_alg F (s := t.alg) (ch := s.changed) (by exact hI) (by exact ha) rfl hap
        have hI1 : I (t1.params.entries.map (·.1)) t1.alg := by
          rw [← hc2]
          rcases c5 with ⟨e1, -⟩ | ⟨-, -, a, e3, e4⟩
          · rw [e1]; exact hal
          · rw [update_params (F.accepted _ _ _ _ _ _ _ hI ha rfl e3)]; exact hal
        have hr1 : t1.restart = false := by rw [← hc2, c2]; exact hr
        rcases ih t1 t2 ss' hI1 hr1 hts with ⟨q1, q2⟩ | ⟨i, s', m', q1, q2, q3, q4⟩
        · rcases C134_use pow10 A I F t t1 hI hr m good s ht with ⟨w1, w2⟩ | ⟨w1, w2, w3⟩
          · left; exact ⟨q1.trans w1, q2.trans w2⟩
          · right
            refine ⟨0, s, m, rfl, by simp [w3], q1.trans w1, q2.trans w2⟩
        · right
          exact ⟨i + 1, s', m', by simpa using q1, by simpa using q2, q3, q4⟩

/-- A restart, after more than `maxFails` results in a row that were bad or declined: the points in use
become those of the best of the last `maxFails` results (of the last one if `maxFails` is 0), with its
metrics, if the buffer is larger than that. -/
theorem C134_restart_partial (pow10 : K → K) (A : Algo K σ) (I : List (Param K) → σ → Prop) (F : Faithful A I)
    (t0 t t' : Opt K σ) (hI : I (t0.params.entries.map (·.1)) t0.alg) (hf : t0.fails = 0)
    (hreach : Reach pow10 A t0 t) (hr : t.restart = true) (hm : t.maxFails ≤ t.fails)
    (m : K) (good : Bool) (s : Sugg K) (h : trial pow10 A t m good = some (s, t'))
    (hd : good = false ∨ ∀ alg p a, A.suggest t.params t.alg = some (s.changed, alg) →
      A.accept t.params ⟨s.changed, getPoints pow10 t.params, t.params.metrics, s.after, m, good⟩ alg ≠ some (true, p, a)) :
    let new : Result K := ⟨s.changed, getPoints pow10 t.params, t.params.metrics, s.after, m, good⟩
    let window := (new :: newestFirst t.results).take (max t.maxFails 1)
    ∃ best ∈ window, (∀ r ∈ window, best.mAfter ≤ r.mAfter) ∧
      getPoints pow10 t'.params = best.after ∧ t'.params.metrics = best.mAfter := by
  intro new window
  obtain ⟨alg, results, t2, ha, hsu, hp, hap, hc⟩ := trial_parts h
  obtain ⟨c1, c2, c3, c4, c5⟩ := apply_cases F hap
  have inv := reach_inv F hI hf hreach
  have hra : s.after = withChanged pow10 t.params s.changed := by rw [hsu]
  rcases c5 with ⟨e1, e2⟩ | ⟨hg, -, a, e3, -⟩
  swap
  · rcases hd with hd | hd
    · have : good = true := hg
      rw [hd] at this; cases this
    · exact absurd e3 (hd alg _ a ha)
  have hrec : Recent pow10 t2 := recent_push inv.2 hp ⟨hra, F.nodup _ _ _ _ ha⟩ e1 c1 e2
  unfold checkRestart at hc
  rw [if_pos (by rw [c2, c3, e2]; exact ⟨by simpa using Nat.lt_succ_of_le hm, hr⟩)] at hc
  obtain ⟨best, res, k, hk, -, hkm, hlen, -, hu, -, -, -⟩ := restart_spec hc
  have e1' : t2.params = t.params := e1
  have c1' : t2.results = results := c1
  have c3' : t2.maxFails = t.maxFails := c3
  have e2' : t2.fails = t.fails + 1 := e2
  obtain ⟨tl, hn1, hn2⟩ := push_newest hp
  rw [c1', c3'] at hlen hkm
  rw [c1'] at hk
  have hrl : results.length = tl.length + 1 := by
    have := congrArg List.length hn1
    simpa [newestFirst] using this
  -- the window of the new buffer
  have hwin : window = (newestFirst results).take (max t.maxFails 1) := by
    show (new :: newestFirst t.results).take (max t.maxFails 1) = _
    rw [hn1]
    have hmx : 1 ≤ max t.maxFails 1 := Nat.le_max_right _ _
    obtain ⟨w, hw⟩ : ∃ w, max t.maxFails 1 = w + 1 := ⟨max t.maxFails 1 - 1, by omega⟩
    rw [hw, List.take_succ_cons, List.take_succ_cons]
    congr 1
    rcases hn2 with e | ⟨hl, e⟩
    · rw [e]
    · rw [e, List.take_take]
      congr 1
      have : tl.length ≤ t.capacity - 1 := by rw [e]; simp
      omega
  have hspec : ∃ v, (newestFirst results)[k]? = some v ∧ v ∈ window ∧ (∀ x ∈ window, v.mAfter ≤ x.mAfter) ∧ k ≤ t.fails := by
    by_cases z : t.maxFails = 0
    · have hk0 : k = 0 := by rw [hkm, z]; rfl
      have hw1 : window = [new] := by rw [hwin, hn1, z]; rfl
      refine ⟨new, by rw [hk0, hn1]; rfl, by rw [hw1]; simp, by rw [hw1]; simp, by omega⟩
    · obtain ⟨f, hfe⟩ : ∃ f, t.maxFails = f + 1 := ⟨t.maxFails - 1, by omega⟩
      have hmax : max t.maxFails 1 = f + 1 := by omega
      rw [hmax] at hwin
      rw [hfe, hn1, List.take_succ_cons] at hkm
      rw [hn1, List.take_succ_cons] at hwin
      obtain ⟨v, hv1, hv2⟩ := minLoop_spec (fun l r : Result K => decide (l.mAfter < r.mAfter))
        (fun x y : Result K => x.mAfter ≤ y.mAfter) (by intro x y; simp) (fun x => le_refl _)
        (fun x y z => le_trans) (fun x y => le_total _ _) (tl.take f) [new] 0 new rfl
        (by intro y hy
            have : y = new := by simpa using hy
            rw [this])
      have hk2 : k = minLoop (fun l r : Result K => decide (l.mAfter < r.mAfter)) (tl.take f) 1 0 new := hkm
      have hv1' : (new :: tl.take f)[k]? = some v := by rw [hk2]; simpa using hv1
      have hkl : k < (new :: tl.take f).length := by
        rw [List.getElem?_eq_some_iff] at hv1'; exact hv1'.1
      refine ⟨v, ?_, ?_, ?_, ?_⟩
      · rw [hn1, ← hv1']
        have : (new :: tl.take f) = (new :: tl).take (f + 1) := by simp
        rw [this, List.getElem?_take_of_lt (by simp at hkl; omega)]
      · rw [hwin]; exact List.mem_of_getElem? hv1'
      · rw [hwin]; simpa using hv2
      · simp at hkl; omega
  obtain ⟨v, g1, g2, g3, g4⟩ := hspec
  have hbv : best = v := by
    have : (newestFirst results)[k]? = some best := hk
    rw [g1] at this
    exact (Option.some.inj this).symm
  rw [hbv] at hu
  have hv := hrec k v (by rw [e2']; omega) (by rw [c1']; exact g1)
  have := C133_announced_partial pow10 _ _ _ _ hu hv.2
  refine ⟨v, g2, g3, ?_, this.2⟩
  rw [this.1, hv.1]

/-- The code does not keep this for a buffer of fewer than `maxFails` results: the search for the best
result reads past its end. -/
theorem C134_restart_small_fails (pow10 : K → K) (A : Algo K σ) (t : Opt K σ) (m : K) (hr : t.restart = true)
    (hm : t.maxFails ≤ t.fails) (hb : t.results.length ≤ t.capacity) (hc : t.capacity < t.maxFails) :
    trial pow10 A t m false = none := by
  cases h : trial pow10 A t m false with
  | none => rfl
  | some x =>
    obtain ⟨s, t'⟩ := x
    obtain ⟨alg, results, t2, ha, hsu, hp, hap, hch⟩ := trial_parts h
    simp only [applyResult, Option.some.injEq] at hap
    subst hap
    unfold checkRestart at hch
    rw [if_pos ⟨by simpa using Nat.lt_succ_of_le hm, hr⟩] at hch
    obtain ⟨-, -, -, -, -, -, hlen, -⟩ := restart_spec hch
    have hlen' : t.maxFails ≤ results.length := hlen
    exfalso
    unfold push at hp
    by_cases e : t.results.length = t.capacity
    · rw [if_pos e] at hp
      cases hq : t.results with
      | nil => simp only [hq] at hp; cases hp
      | cons y u =>
        simp only [hq, Option.some.injEq] at hp
        rw [← hp] at hlen'
        rw [hq] at hb
        simp at hlen' hb
        omega
    · rw [if_neg e, Option.some.injEq] at hp
      rw [← hp] at hlen'
      simp at hlen'
      omega

end

/-- the optimizer that changes nothing, restarting after three failures -/
def demoOpt : Opt ℚ Unit := setRestartStrategy (Opt.new ⟨[(demoTau, 3), (demoEps, -3)], 5⟩ 4 ()) true 2

/-- two failures and a good result; then three failures, the best of the last two is taken -/
example : (trials id noop demoOpt [(9, false), (8, false), (4, true)]).map (fun x => (getPoints id x.2.params, x.2.params.metrics, x.2.fails))
      = some ([⟨"tau", 2⟩, ⟨"eps", -3⟩], 4, 0) ∧
    (trials id noop demoOpt [(6, false), (8, false), (7, false)]).map (fun x => (getPoints id x.2.params, x.2.params.metrics, x.2.fails))
      = some ([⟨"tau", 2⟩, ⟨"eps", -3⟩], 7, 0) := by decide +kernel

/-- the buffer of two results is too small for a restart after four failures -/
example : trials id noop (setRestartStrategy (Opt.new demoParams 2 ()) true 3)
    [(6, false), (8, false), (7, false)] ≠ none ∧
    trials id noop (setRestartStrategy (Opt.new demoParams 2 ()) true 3)
    [(6, false), (8, false), (7, false), (7, false)] = none := by
  have h : (trials id noop (setRestartStrategy (Opt.new demoParams 2 ()) true 3)
    [(6, false), (8, false), (7, false)]).isSome = true ∧
    (trials id noop (setRestartStrategy (Opt.new demoParams 2 ()) true 3)
    [(6, false), (8, false), (7, false), (7, false)]).isNone = true := by decide +kernel
  exact ⟨(by intro e; rw [e] at h; exact absurd h.1 (by decide)), Option.isNone_iff_eq_none.1 h.2⟩

/-- The code does not keep to good results: after a restart the points in use can be those of a use
whose result was marked bad, although a better good result was known. -/
theorem C134_restart_good_fails : ∃ (t0 t' : Opt ℚ Unit) (ss : List (Sugg ℚ)) (ms : List (ℚ × Bool)),
    trials id noop t0 ms = some (ss, t') ∧ ((4 : ℚ), true) ∈ ms ∧
    t'.params.metrics = 7 ∧ ∀ m, (m, true) ∈ ms → m ≠ 7 := by
  have h : (trials id noop demoOpt [(4, true), (9, false), (8, false), (7, false)]).map
      (fun x => x.2.params.metrics) = some 7 := by decide +kernel
  cases hx : trials id noop demoOpt [(4, true), (9, false), (8, false), (7, false)] with
  | none => rw [hx] at h; cases h
  | some x =>
    rw [hx] at h
    refine ⟨demoOpt, x.2, x.1, _, hx, by simp, by simpa using h, ?_⟩
    intro m hm
    simp at hm
    rw [hm]; decide

/-- The code does not keep this for a buffer of one result: the chosen result is removed from the buffer
before it is used (`maxFails` 0, as set for a buffer of capacity 1 by the automatic tuning of solvers,
ttsp.cpp L124). -/
theorem C134_restart_one_fails : trial id noop (setRestartStrategy (Opt.new demoParams 1 ()) true 0) 5 false = none := by
  have h : (trial id noop (setRestartStrategy (Opt.new demoParams 1 ()) true 0) 5 false).isNone = true := by
    decide +kernel
  exact Option.isNone_iff_eq_none.1 h

end Verif.Optim
