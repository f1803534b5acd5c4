import Verif.Optim.Interface

/-!
The alternating optimizer: Source/Optimizer/optimizers/alternating/alternating.cpp. It visits the
parameters in turn and tries the next listed value of each.
-/

namespace Verif.Optim.Alternating

/-- `AlternatingDirection` (alternating.h L12-16) -/
inductive Dir where
  | right | stay | left
  deriving DecidableEq

/-- `AlternatingParameterHandler` (alternating.h L18-22) -/
structure Handler (K : Type) where
  param : Param K
  idx : Nat
  dir : Dir
  deriving DecidableEq

/-- data of `AlternatingOptimizer` (alternating.h L41-44) -/
structure Data (K : Type) where
  cur : Nat
  hs : List (Handler K)
  deriving DecidableEq

/-- `AlternatingParameterHandler::NextIndex` (alternating.cpp L27-59) for a parameter with `n` values: the
index and the changed direction. Simplified: after `goto` the opposite end is not tested again, with
three or more values both ends differ; for `n = 0` the result is not used (the callers throw). -/
def nextIndex (n idx : Nat) (dir : Dir) : Nat × Dir :=
  if n - 1 < 2 then (idx, dir)
  else
    match dir with
    | .right => if idx = n - 1 then (idx - 1, .left) else (idx + 1, .right)
    | .stay => (idx, .stay)
    | .left => if idx = 0 then (idx + 1, .right) else (idx - 1, .left)

/-- `AlternatingParameterHandler::NextDirection` (alternating.cpp L61-75) -/
def nextDirection : Dir → Dir
  | .right => .stay
  | .stay => .left
  | .left => .right

/-- `AlgorithmMakeSuggestion` (alternating.cpp L90-93); `none`: `at` throws -/
def makeSuggestion {K : Type} (s : Data K) : Option (List (Nat × K) × Data K) :=
  match s.hs[s.cur]? with
  | none => none
  | some h =>
    let (i, d) := nextIndex h.param.values.length h.idx h.dir
    match h.param.values[i]? with
    | none => none
    | some v => some ([(s.cur, v)], { s with hs := s.hs.set s.cur { h with dir := d } })

section
variable {K : Type} [Field K] [LinearOrder K]

/-- `is_metrics_better` (alternating.cpp L100) -/
def better (r : Result K) : Bool := decide (r.mBefore < 0) || decide (r.mAfter < r.mBefore)

/-- `NextDirection` if the metrics is not better, then the next parameter (alternating.cpp L109-113) -/
def advance (s : Data K) (h : Handler K) (b : Bool) : Data K :=
  ⟨(s.cur + 1) % s.hs.length, s.hs.set s.cur (if b then h else { h with dir := nextDirection h.dir })⟩

/-- `UpdateSpaceWithLatestResults` (alternating.cpp L95-116); `none`: `at` throws -/
def updateSpace (p : Params K) (r : Result K) (s : Data K) : Option (Bool × Params K × Data K) :=
  match s.hs[s.cur]? with
  | none => none
  | some h =>
    if r.good = true ∧ (better r = true ∨ h.dir = .stay) then
      let (i, d) := nextIndex h.param.values.length h.idx h.dir
      match p.entries[s.cur]? with
      | none => none
      | some e =>
        match e.1.values[i]? with
        | none => none
        | some v =>
          match update1 p s.cur v r.mAfter with
          | none => none
          | some p' => some (true, p', advance s { h with idx := i, dir := d } (better r))
    else some (false, p, advance s h (better r))

/-- the alternating optimizer -/
def alternating : Algo K (Data K) where
  suggest := fun _ s => makeSuggestion s
  accept := updateSpace

/-- constructors (alternating.cpp L9-10, L81-88) -/
def start [IsStrictOrderedRing K] (p : Params K) : Data K :=
  ⟨0, p.entries.map fun e => ⟨e.1, closestIndexTo e.1.values e.1.dflt, .right⟩⟩

/-- a new alternating optimizer -/
def new [IsStrictOrderedRing K] (p : Params K) (capacity : Nat) : Opt K (Data K) := Opt.new p capacity (start p)

/-! ### helpers -/

/-- invariant of the data: one handler for each parameter -/
def Inv (ps : List (Param K)) (s : Data K) : Prop :=
  s.hs.map (·.param) = ps ∧ (∀ h ∈ s.hs, h.param.values ≠ [] → h.idx < h.param.values.length) ∧
  (s.hs ≠ [] → s.cur < s.hs.length)

omit [Field K] [LinearOrder K] in
theorem nextIndex_idem (n idx : Nat) (dir : Dir) (hi : idx < n) :
    nextIndex n idx (nextIndex n idx dir).2 = nextIndex n idx dir := by
  unfold nextIndex
  by_cases c : n - 1 < 2
  · simp only [if_pos c]
  · simp only [if_neg c]
    cases dir with
    | stay => rfl
    | right =>
      by_cases e : idx = n - 1
      · simp only [if_pos e]
        have : ¬ idx = 0 := by omega
        simp only [if_neg this]
      · simp only [if_neg e]
    | left =>
      by_cases e : idx = 0
      · simp only [if_pos e]
        have : ¬ idx = n - 1 := by omega
        simp only [if_neg this]
      · simp only [if_neg e]

omit [Field K] [LinearOrder K] in
theorem nextIndex_lt (n idx : Nat) (dir : Dir) (hi : idx < n) : (nextIndex n idx dir).1 < n := by
  unfold nextIndex
  by_cases c : n - 1 < 2
  · simpa only [if_pos c] using hi
  · simp only [if_neg c]
    cases dir with
    | stay => exact hi
    | right =>
      by_cases e : idx = n - 1
      · simp only [if_pos e]; omega
      · simp only [if_neg e]; omega
    | left =>
      by_cases e : idx = 0
      · simp only [if_pos e]; omega
      · simp only [if_neg e]; omega

omit [Field K] [LinearOrder K] in
theorem nextIndex_stay (n idx : Nat) : (nextIndex n idx .stay) = (idx, .stay) := by
  unfold nextIndex
  by_cases c : n - 1 < 2
  · simp only [if_pos c]
  · simp only [if_neg c]

omit [Field K] [LinearOrder K] in
theorem make_some {s s1 : Data K} {ch : List (Nat × K)} (h : makeSuggestion s = some (ch, s1)) :
    ∃ hd v, s.hs[s.cur]? = some hd ∧
      hd.param.values[(nextIndex hd.param.values.length hd.idx hd.dir).1]? = some v ∧ ch = [(s.cur, v)] ∧
      s1 = { s with hs := s.hs.set s.cur { hd with dir := (nextIndex hd.param.values.length hd.idx hd.dir).2 } } := by
  unfold makeSuggestion at h
  cases hh : s.hs[s.cur]? with
  | none => simp only [hh] at h; cases h
  | some hd =>
    simp only [hh] at h
    cases hv : hd.param.values[(nextIndex hd.param.values.length hd.idx hd.dir).1]? with
    | none => simp only [hv] at h; cases h
    | some v =>
      simp only [hv, Option.some.injEq, Prod.mk.injEq] at h
      exact ⟨hd, v, rfl, hv, h.1.symm, h.2.symm⟩

omit [Field K] [LinearOrder K] in
theorem inv_set {ps : List (Param K)} {s : Data K} (hI : Inv ps s) {hd h' : Handler K} {c : Nat}
    (hh : s.hs[s.cur]? = some hd) (e1 : h'.param = hd.param)
    (e2 : h'.param.values ≠ [] → h'.idx < h'.param.values.length) (hc : s.hs ≠ [] → c < s.hs.length) :
    Inv ps ⟨c, s.hs.set s.cur h'⟩ := by
  obtain ⟨i1, i2, i3⟩ := hI
  refine ⟨?_, ?_, ?_⟩
  · rw [← i1]
    simp only
    rw [List.map_set]
    apply List.ext_getElem?
    intro i
    rw [List.getElem?_set]
    by_cases c1 : s.cur = i
    · subst c1
      simp only [if_true, List.length_map, List.getElem?_map, hh, Option.map_some]
      rw [if_pos (by rw [List.getElem?_eq_some_iff] at hh; exact hh.1), e1]
    · rw [if_neg c1]
  · intro h hm
    rcases List.mem_or_eq_of_mem_set hm with e | e
    · exact i2 h e
    · rw [e]; exact e2
  · intro hn
    simp only [List.length_set]
    apply hc
    intro e
    apply hn
    rw [e]; simp

omit [Field K] [LinearOrder K] in
theorem make_inv {ps : List (Param K)} {s s1 : Data K} {ch : List (Nat × K)} (hI : Inv ps s)
    (h : makeSuggestion s = some (ch, s1)) : Inv ps s1 := by
  obtain ⟨hd, v, hh, hv, -, e⟩ := make_some h
  subst e
  exact inv_set hI hh rfl (hI.2.1 hd (List.mem_of_getElem? hh)) hI.2.2

theorem advance_inv {ps : List (Param K)} {s : Data K} (hI : Inv ps s) {hd h' : Handler K} (b : Bool)
    (hh : s.hs[s.cur]? = some hd) (e1 : h'.param = hd.param)
    (e2 : h'.param.values ≠ [] → h'.idx < h'.param.values.length) : Inv ps (advance s h' b) := by
  unfold advance
  have hpos : s.hs ≠ [] → (s.cur + 1) % s.hs.length < s.hs.length := by
    intro hn
    exact Nat.mod_lt _ (List.length_pos_of_ne_nil hn)
  cases b with
  | true => exact inv_set hI hh e1 e2 hpos
  | false => exact inv_set hI hh e1 e2 hpos

/-- the parts of an update -/
theorem update_some {p p' : Params K} {r : Result K} {s s' : Data K} {b : Bool}
    (h : updateSpace p r s = some (b, p', s')) :
    ∃ hd, s.hs[s.cur]? = some hd ∧
      ((b = false ∧ p' = p ∧ s' = advance s hd (better r) ∧ ¬ (r.good = true ∧ (better r = true ∨ hd.dir = .stay))) ∨
       (b = true ∧ r.good = true ∧ (better r = true ∨ hd.dir = .stay) ∧ ∃ e v, p.entries[s.cur]? = some e ∧
         e.1.values[(nextIndex hd.param.values.length hd.idx hd.dir).1]? = some v ∧
         update1 p s.cur v r.mAfter = some p' ∧
         s' = advance s { hd with idx := (nextIndex hd.param.values.length hd.idx hd.dir).1
                                  dir := (nextIndex hd.param.values.length hd.idx hd.dir).2 } (better r))) := by
  unfold updateSpace at h
  cases hh : s.hs[s.cur]? with
  | none => simp only [hh] at h; cases h
  | some hd =>
    simp only [hh] at h
    refine ⟨hd, rfl, ?_⟩
    by_cases c : r.good = true ∧ (better r = true ∨ hd.dir = .stay)
    · rw [if_pos c] at h
      cases he : p.entries[s.cur]? with
      | none => simp only [he] at h; cases h
      | some e =>
        simp only [he] at h
        cases hv : e.1.values[(nextIndex hd.param.values.length hd.idx hd.dir).1]? with
        | none => simp only [hv] at h; cases h
        | some v =>
          simp only [hv] at h
          cases hu : update1 p s.cur v r.mAfter with
          | none => simp only [hu] at h; cases h
          | some q =>
            simp only [hu, Option.some.injEq, Prod.mk.injEq] at h
            obtain ⟨h1, h2, h3⟩ := h
            subst h2
            exact Or.inr ⟨h1.symm, c.1, c.2, e, v, rfl, hv, hu, h3.symm⟩
    · rw [if_neg c] at h
      simp only [Option.some.injEq, Prod.mk.injEq] at h
      exact Or.inl ⟨h.1.symm, h.2.1.symm, h.2.2.symm, c⟩

omit [Field K] [LinearOrder K] in
theorem update_one (p : Params K) (i : Nat) (v m : K) : update p [(i, v)] m = update1 p i v m := by
  unfold update update1
  simp only [setEntries]
  cases setEntry p.entries i v <;> rfl

omit [Field K] [LinearOrder K] in
theorem entry_param {ps : Params K} {s : Data K} (hI : s.hs.map (·.param) = ps.entries.map (·.1)) {i : Nat} {hd : Handler K}
    (hh : s.hs[i]? = some hd) : ∃ e, ps.entries[i]? = some e ∧ e.1 = hd.param := by
  have h1 : (s.hs.map (·.param))[i]? = some hd.param := by rw [List.getElem?_map, hh]; rfl
  rw [hI, List.getElem?_map] at h1
  cases he : ps.entries[i]? with
  | none => rw [he] at h1; cases h1
  | some e =>
    rw [he] at h1
    exact ⟨e, rfl, by simpa using h1⟩

omit [Field K] [LinearOrder K] in
theorem vals_lt {h : Handler K} {j : Nat} {v : K} (hv : h.param.values[j]? = some v) : h.param.values ≠ [] := by
  intro e
  rw [e] at hv
  simp at hv

theorem faithful : Faithful (alternating (K := K)) Inv where
  nodup := by
    intro p s ch s1 h
    obtain ⟨hd, v, -, -, e, -⟩ := make_some h
    rw [e]; simp
  declined := by
    intro p r s p' s' h
    obtain ⟨hd, -, h2⟩ := update_some h
    rcases h2 with ⟨-, e, -⟩ | ⟨e, -⟩
    · exact e
    · cases e
  accepted := by
    intro p s ch s1 r p' s' hI hs hr h
    obtain ⟨hd, v, hh, hv, hch, e⟩ := make_some hs
    subst e
    obtain ⟨hd', hh', h2⟩ := update_some h
    rcases h2 with ⟨e, -⟩ | ⟨-, -, -, en, w, he, hw, hu, -⟩
    · cases e
    · have hlt : s.cur < s.hs.length := by rw [List.getElem?_eq_some_iff] at hh; exact hh.1
      simp only [List.getElem?_set_self hlt, Option.some.injEq] at hh'
      obtain ⟨e2, he2, hp⟩ := entry_param hI.1 hh
      simp only at he hu
      rw [he2] at he
      cases he
      have hid := hI.2.1 hd (List.mem_of_getElem? hh) (vals_lt hv)
      rw [← hh'] at hw
      simp only at hw
      rw [nextIndex_idem _ _ _ hid, hp, hv] at hw
      cases hw
      rw [hch, update_one]
      exact hu
  suggest_inv := by
    intro p s ch s1 hI h
    exact make_inv hI h
  accept_inv := by
    intro p s ch s1 r b p' s' hI hs _ h
    have hI1 := make_inv hI hs
    obtain ⟨hd, hh, h2⟩ := update_some h
    have hid := hI1.2.1 hd (List.mem_of_getElem? hh)
    rcases h2 with ⟨-, -, e, -⟩ | ⟨-, -, -, en, w, he, hw, hu, e⟩
    · rw [e]; exact advance_inv hI1 _ hh rfl hid
    · rw [e]
      exact advance_inv hI1 _ hh rfl (fun hn => nextIndex_lt _ _ _ (hid hn))

omit [Field K] [LinearOrder K] in
theorem start_inv [Field K] [LinearOrder K] [IsStrictOrderedRing K] (p : Params K) :
    Inv (p.entries.map (·.1)) (start p) := by
  refine ⟨?_, ?_, ?_⟩
  · simp [start]
  · intro h hm hn
    simp only [start, List.mem_map] at hm
    obtain ⟨e, -, rfl⟩ := hm
    simp only at hn ⊢
    obtain ⟨v, hv, -⟩ := C133_closest e.1.values e.1.dflt hn
    unfold closestTo at hv
    rw [List.getElem?_eq_some_iff] at hv
    exact hv.1
  · intro hn
    exact List.length_pos_of_ne_nil hn

/-- no restart: a use ends after the result was taken -/
theorem trial_norestart {σ : Type} {pow10 : K → K} {A : Algo K σ} {t t' : Opt K σ} {m : K} {good : Bool} {s : Sugg K}
    (hr : t.restart = false) (h : trial pow10 A t m good = some (s, t')) :
    ∃ alg results, A.suggest t.params t.alg = some (s.changed, alg) ∧
      s.after = withChanged pow10 t.params s.changed ∧
      applyResult A { t with last := some s, alg := alg, results := results }
        ⟨s.changed, getPoints pow10 t.params, t.params.metrics, s.after, m, good⟩ = some t' := by
  obtain ⟨alg, results, t2, ha, hsu, hp, hap, hc⟩ := trial_parts h
  refine ⟨alg, results, ha, by rw [hsu], ?_⟩
  have hr2 : t2.restart = false := by
    unfold applyResult at hap
    cases good with
    | false => simp only [Option.some.injEq] at hap; rw [← hap]; exact hr
    | true =>
      simp only at hap
      cases hx : A.accept t.params ⟨s.changed, getPoints pow10 t.params, t.params.metrics, s.after, m, true⟩ alg with
      | none => simp only [hx] at hap; cases hap
      | some x =>
        obtain ⟨b, p, a⟩ := x
        cases b <;> simp only [hx, Option.some.injEq] at hap <;> rw [← hap] <;> exact hr
  unfold checkRestart at hc
  rw [if_neg (by simp [hr2])] at hc
  rw [← Option.some.inj hc]; exact hap

/-- invariants of a history without restarts -/
structure Good (t : Opt K (Data K)) : Prop where
  inv : Inv (t.params.entries.map (·.1)) t.alg
  restart : t.restart = false

theorem good_trial {pow10 : K → K} {t t' : Opt K (Data K)} {m : K} {good : Bool} {s : Sugg K} (hg : Good t)
    (h : trial pow10 alternating t m good = some (s, t')) :
    Good t' ∧ t'.params.entries.map (·.1) = t.params.entries.map (·.1) := by
  obtain ⟨alg, results, ha, -, hap⟩ := trial_norestart hg.restart h
  obtain ⟨-, c2, -, -, c5⟩ := apply_cases faithful hap
  have hal := apply_alg faithful (s := t.alg) (ch := s.changed) (by exact hg.inv) (by exact ha) rfl hap
  rcases c5 with ⟨e1, -⟩ | ⟨-, -, a, e3, e4⟩
  · have e1' : t'.params = t.params := e1
    exact ⟨⟨by rw [e1']; exact hal, c2.trans hg.restart⟩, by rw [e1']⟩
  · have hu := faithful.accepted _ _ _ _ _ _ _ hg.inv ha rfl e3
    have hq := update_params hu
    exact ⟨⟨by rw [hq]; exact hal, c2.trans hg.restart⟩, hq⟩

/-- `cur` after a use -/
theorem cur_trial {pow10 : K → K} {t t' : Opt K (Data K)} {m : K} {good : Bool} {s : Sugg K} (hg : Good t)
    (h : trial pow10 alternating t m good = some (s, t')) :
    t'.alg.cur = if good then (t.alg.cur + 1) % t.params.entries.length else t.alg.cur := by
  obtain ⟨alg, results, ha, -, hap⟩ := trial_norestart hg.restart h
  obtain ⟨hd, v, hh, hv, hch, e⟩ := make_some ha
  have hlen : t.alg.hs.length = t.params.entries.length := by
    have := congrArg List.length hg.inv.1
    simpa using this
  unfold applyResult at hap
  cases good with
  | false =>
    simp only [Option.some.injEq] at hap
    rw [← hap, e]; rfl
  | true =>
    simp only at hap
    cases hx : alternating.accept t.params ⟨s.changed, getPoints pow10 t.params, t.params.metrics, s.after, m, true⟩ alg with
    | none => simp only [hx] at hap; cases hap
    | some x =>
      obtain ⟨b, p, a⟩ := x
      have hta : t'.alg = a := by
        cases b <;> simp only [hx, Option.some.injEq] at hap <;> rw [← hap]
      rw [hta]
      obtain ⟨hd', -, h2⟩ := update_some hx
      rcases h2 with ⟨-, -, ea, -⟩ | ⟨-, -, -, en, w, -, -, -, ea⟩
      · rw [ea, e, ← hlen]; simp [advance]
      · rw [ea, e, ← hlen]; simp [advance]

/-- number of good results -/
def goods {M : Type} (ms : List (M × Bool)) : Nat := (ms.filter (·.2)).length

theorem trials_step {σ : Type} {pow10 : K → K} {A : Algo K σ} {t t' : Opt K σ} {m : K} {g : Bool} {r : List (K × Bool)}
    {ss : List (Sugg K)} (h : trials pow10 A t ((m, g) :: r) = some (ss, t')) :
    ∃ s t1 ss', trial pow10 A t m g = some (s, t1) ∧ trials pow10 A t1 r = some (ss', t') ∧ ss = s :: ss' := by
  simp only [trials] at h
  cases ht : trial pow10 A t m g with
  | none => simp only [ht] at h; cases h
  | some y =>
    obtain ⟨s, t1⟩ := y
    simp only [ht] at h
    cases hts : trials pow10 A t1 r with
    | none => simp only [hts] at h; cases h
    | some z =>
      obtain ⟨ss', t2⟩ := z
      simp only [hts, Option.some.injEq, Prod.mk.injEq] at h
      obtain ⟨h1, h2⟩ := h
      subst h2
      exact ⟨s, t1, ss', rfl, hts, h1.symm⟩

theorem listed_aux (pow10 : K → K) (ms : List (K × Bool)) : ∀ (t t' : Opt K (Data K)) (ss : List (Sugg K)) (c : Nat),
    Good t → t.alg.cur = c % t.params.entries.length → trials pow10 alternating t ms = some (ss, t') →
    ss.length = ms.length ∧
    ∀ i s, ss[i]? = some s → ∃ v e, s.changed = [((c + goods (ms.take i)) % t.params.entries.length, v)] ∧
      (t.params.entries.map (·.1))[(c + goods (ms.take i)) % t.params.entries.length]? = some e ∧ v ∈ e.values := by
  induction ms with
  | nil =>
    intro t t' ss c _ _ h
    simp only [trials, Option.some.injEq, Prod.mk.injEq] at h
    rw [← h.1]
    simp
  | cons x r ih =>
    intro t t' ss c hg hc h
    obtain ⟨m, g⟩ := x
    obtain ⟨s, t1, ss', ht, hts, rfl⟩ := trials_step h
    obtain ⟨hg1, hps⟩ := good_trial hg ht
    have hcur := cur_trial hg ht
    have hlen : t1.params.entries.length = t.params.entries.length := by
      have := congrArg List.length hps
      simpa using this
    have := ih t1 t' ss' (c + if g then 1 else 0) hg1 (by
      rw [hcur, hlen, hc]
      cases g with
      | true => simp [Nat.add_mod]
      | false => simp) hts
    obtain ⟨hl, hs⟩ := this
    refine ⟨by simp [hl], ?_⟩
    intro i s' hi
    cases i with
    | zero =>
      have hss : s = s' := by simpa using hi
      rw [← hss]
      obtain ⟨alg, results, ha, -, -⟩ := trial_norestart hg.restart ht
      obtain ⟨hd, v, hh, hv, hch, e⟩ := make_some ha
      refine ⟨v, hd.param, ?_, ?_, List.mem_of_getElem? hv⟩
      · simp only [List.take_zero, goods, List.filter_nil, List.length_nil, Nat.add_zero]
        rw [← hc]; exact hch
      · simp only [List.take_zero, goods, List.filter_nil, List.length_nil, Nat.add_zero]
        rw [← hc, ← hg.inv.1, List.getElem?_map, hh]; rfl
    | succ i =>
      obtain ⟨v, e, h1, h2, h3⟩ := hs i s' (by simpa using hi)
      rw [hlen] at h1 h2
      rw [hps] at h2
      have hcount : c + goods (((m, g) :: r).take (i + 1)) = (c + if g then 1 else 0) + goods (r.take i) := by
        cases g <;> simp [goods] <;> omega
      rw [hcount]
      exact ⟨v, e, h1, h2, h3⟩

/-- values in use are the listed values of the handlers -/
def Linked (t : Opt K (Data K)) : Prop :=
  ∀ (i : Nat) (h : Handler K) (e : Param K × K), t.alg.hs[i]? = some h → t.params.entries[i]? = some e →
    h.param.values[h.idx]? = some e.2

omit [Field K] [LinearOrder K] in
theorem withChanged_same (pow10 : K → K) (p : Params K) (i : Nat) (e : Param K × K) (h : p.entries[i]? = some e) :
    withChanged pow10 p [(i, e.2)] = getPoints pow10 p := by
  apply List.ext_getElem?
  intro j
  unfold getPoints withChanged
  rw [List.getElem?_map, changedLoop_get, Nat.zero_add]
  by_cases c : j = i
  · subst c
    rw [h]
    simp
  · have : ([(i, e.2)] : List (Nat × K)).find? (fun c => j == c.1) = none := by
      rw [List.find?_eq_none]
      intro x hx
      have : x = (i, e.2) := by simpa using hx
      rw [this]; simpa using c
    rw [this]

/-- one use: the link is kept, and the points change only for a better result -/
theorem linked_trial {pow10 : K → K} {t t' : Opt K (Data K)} {m : K} {good : Bool} {s : Sugg K} (hg : Good t)
    (hl : Linked t) (h : trial pow10 alternating t m good = some (s, t')) :
    Linked t' ∧ (getPoints pow10 t'.params = getPoints pow10 t.params ∨
      (getPoints pow10 t'.params = s.after ∧ t'.params.metrics = m ∧ good = true ∧
        (t.params.metrics < 0 ∨ m < t.params.metrics))) := by
  have huse := C134_use pow10 alternating Inv faithful t t' hg.inv hg.restart m good s h
  obtain ⟨alg, results, ha, haf, hap⟩ := trial_norestart hg.restart h
  obtain ⟨hd, v, hh, hv, hch, e⟩ := make_some ha
  have hlt : t.alg.cur < t.alg.hs.length := by rw [List.getElem?_eq_some_iff] at hh; exact hh.1
  have hid := hg.inv.2.1 hd (List.mem_of_getElem? hh) (vals_lt hv)
  -- handlers that are not current are not touched
  have hset : ∀ (x : Handler K) (c : Nat) (p' : Params K), (∀ j, j ≠ t.alg.cur → p'.entries[j]? = t.params.entries[j]?) →
      (∀ en, p'.entries[t.alg.cur]? = some en → x.param.values[x.idx]? = some en.2) →
      ∀ (i : Nat) (h : Handler K) (en : Param K × K), (t.alg.hs.set t.alg.cur x)[i]? = some h → p'.entries[i]? = some en →
        h.param.values[h.idx]? = some en.2 := by
    intro x c p' hp1 hp2 i h' en hi he
    by_cases ci : i = t.alg.cur
    · subst ci
      rw [List.getElem?_set_self hlt] at hi
      cases hi
      exact hp2 en he
    · rw [List.getElem?_set_ne (Ne.symm ci)] at hi
      rw [hp1 i ci] at he
      exact hl i h' en hi he
  have hcurl : ∀ en, t.params.entries[t.alg.cur]? = some en → hd.param.values[hd.idx]? = some en.2 :=
    fun en he => hl _ hd en hh he
  unfold applyResult at hap
  cases good with
  | false =>
    simp only [Option.some.injEq] at hap
    refine ⟨?_, Or.inl (by rw [← hap])⟩
    rw [← hap, e]
    exact hset _ 0 t.params (fun _ _ => rfl) hcurl
  | true =>
    simp only at hap
    cases hx : alternating.accept t.params ⟨s.changed, getPoints pow10 t.params, t.params.metrics, s.after, m, true⟩ alg with
    | none => simp only [hx] at hap; cases hap
    | some x =>
      obtain ⟨b, p, a⟩ := x
      have hta : t'.alg = a ∧ t'.params = p := by
        cases b <;> simp only [hx, Option.some.injEq] at hap <;> rw [← hap] <;> exact ⟨rfl, rfl⟩
      obtain ⟨hd', hh', h2⟩ := update_some hx
      have hhd : hd' = { hd with dir := (nextIndex hd.param.values.length hd.idx hd.dir).2 } := by
        rw [e] at hh'
        simp only [List.getElem?_set_self hlt, Option.some.injEq] at hh'
        exact hh'.symm
      rcases h2 with ⟨-, e1, ea, -⟩ | ⟨-, -, hb, en, w, he, hw, hu, ea⟩
      · refine ⟨?_, Or.inl (by rw [hta.2, e1])⟩
        have : t'.params = t.params := by rw [hta.2, e1]
        unfold Linked
        rw [hta.1, this, ea, e]
        simp only [advance, List.set_set]
        refine hset _ 0 t.params (fun _ _ => rfl) ?_
        cases hbt : better ⟨s.changed, getPoints pow10 t.params, t.params.metrics, s.after, m, true⟩ <;>
          (rw [hhd]; exact hcurl)
      · have hcur2 : alg.cur = t.alg.cur := by rw [e]
        rw [hcur2] at he hu
        have hidem := nextIndex_idem hd.param.values.length hd.idx hd.dir hid
        obtain ⟨e2, he2, hp⟩ := entry_param hg.inv.1 hh
        have hee : e2 = en := by rw [he2] at he; exact Option.some.inj he
        subst hee
        have hwv : w = v := by
          rw [hhd] at hw
          simp only at hw
          rw [hidem, hp, hv] at hw
          exact (Option.some.inj hw).symm
        subst hwv
        have hpe : ∃ q, setEntry t.params.entries t.alg.cur w = some q ∧ p = ⟨q, m⟩ := by
          unfold update1 at hu
          cases hq : setEntry t.params.entries t.alg.cur w with
          | none => simp only [hq] at hu; cases hu
          | some q => simp only [hq, Option.some.injEq] at hu; exact ⟨q, rfl, hu.symm⟩
        obtain ⟨q, hq, hpq⟩ := hpe
        obtain ⟨e3, he3, hq3⟩ := setEntry_some hq
        have hltp : t.alg.cur < t.params.entries.length := by
          rw [List.getElem?_eq_some_iff] at he3; exact he3.1
        refine ⟨?_, ?_⟩
        · unfold Linked
          rw [hta.1, hta.2, ea, e]
          simp only [advance, List.set_set]
          refine hset _ 0 p ?_ ?_
          · intro j hj
            rw [hpq, hq3]
            exact List.getElem?_set_ne (Ne.symm hj)
          · intro en2 hen2
            rw [hpq, hq3] at hen2
            simp only [List.getElem?_set_self hltp, Option.some.injEq] at hen2
            rw [← hen2]
            cases hbt : better ⟨s.changed, getPoints pow10 t.params, t.params.metrics, s.after, m, true⟩ <;>
              (rw [hhd]; simp only; rw [hidem]; exact hv)
        · rcases hb with hb | hb
          · rcases huse with ⟨u1, u2⟩ | ⟨u1, u2, u3⟩
            · exact Or.inl u1
            · right
              refine ⟨u1, u2, u3, ?_⟩
              simp only [better, Bool.or_eq_true, decide_eq_true_eq] at hb
              exact hb
          · left
            -- direction STAY: the suggested value is the one in use
            have hst : (nextIndex hd.param.values.length hd.idx hd.dir) = (hd.idx, .stay) := by
              have h1 : (nextIndex hd.param.values.length hd.idx hd.dir).2 = .stay := by
                rw [hhd] at hb; exact hb
              have := hidem
              rw [h1, nextIndex_stay] at this
              exact this.symm
            rw [hst] at hv
            simp only at hv
            have hv2 := hcurl e2 he2
            rw [hv] at hv2
            have hwe : w = e2.2 := Option.some.inj hv2
            rcases huse with ⟨u1, u2⟩ | ⟨u1, u2, u3⟩
            · exact u1
            · rw [u1, haf, hch, hwe]
              exact withChanged_same pow10 _ _ _ he2

/-- parameters with at most two values stay at the first index -/
def Frozen [IsStrictOrderedRing K] (s : Data K) : Prop :=
  ∀ h ∈ s.hs, h.param.values.length ≤ 2 → h.idx = closestIndexTo h.param.values h.param.dflt

omit [Field K] [LinearOrder K] in
theorem nextIndex_two (n idx : Nat) (dir : Dir) (hn : n ≤ 2) : nextIndex n idx dir = (idx, dir) := by
  unfold nextIndex
  rw [if_pos (by omega)]

theorem frozen_set [IsStrictOrderedRing K] {s : Data K} (hF : Frozen s) {h' : Handler K} {c : Nat}
    (e : h'.param.values.length ≤ 2 → h'.idx = closestIndexTo h'.param.values h'.param.dflt) :
    Frozen ⟨c, s.hs.set s.cur h'⟩ := by
  intro h hm
  rcases List.mem_or_eq_of_mem_set hm with g | g
  · exact hF h g
  · rw [g]; exact e

theorem frozen_make [IsStrictOrderedRing K] {s s1 : Data K} {ch : List (Nat × K)} (hF : Frozen s)
    (h : makeSuggestion s = some (ch, s1)) : Frozen s1 := by
  obtain ⟨hd, v, hh, hv, -, e⟩ := make_some h
  rw [e]
  exact frozen_set hF (hF hd (List.mem_of_getElem? hh))

theorem frozen_update [IsStrictOrderedRing K] {p p' : Params K} {r : Result K} {s s' : Data K} {b : Bool} (hF : Frozen s)
    (h : updateSpace p r s = some (b, p', s')) : Frozen s' := by
  obtain ⟨hd, hh, h2⟩ := update_some h
  have hfh := hF hd (List.mem_of_getElem? hh)
  rcases h2 with ⟨-, -, ea, -⟩ | ⟨-, -, -, en, w, -, -, -, ea⟩
  · rw [ea]
    unfold advance
    apply frozen_set hF
    cases better r <;> exact hfh
  · rw [ea]
    unfold advance
    apply frozen_set hF
    cases better r <;>
    · intro hn
      have hn' : hd.param.values.length ≤ 2 := hn
      simp only [nextIndex_two _ _ _ hn']
      exact hfh hn'

theorem frozen_trial [IsStrictOrderedRing K] {pow10 : K → K} {t t' : Opt K (Data K)} {m : K} {good : Bool} {s : Sugg K}
    (hr : t.restart = false) (hF : Frozen t.alg) (h : trial pow10 alternating t m good = some (s, t')) :
    Frozen t'.alg := by
  obtain ⟨alg, results, ha, -, hap⟩ := trial_norestart hr h
  have hF1 := frozen_make hF ha
  unfold applyResult at hap
  cases good with
  | false => simp only [Option.some.injEq] at hap; rw [← hap]; exact hF1
  | true =>
    simp only at hap
    cases hx : alternating.accept t.params ⟨s.changed, getPoints pow10 t.params, t.params.metrics, s.after, m, true⟩ alg with
    | none => simp only [hx] at hap; cases hap
    | some x =>
      obtain ⟨b, p, a⟩ := x
      have := frozen_update hF1 hx
      cases b <;> simp only [hx, Option.some.injEq] at hap <;> rw [← hap] <;> exact this

theorem frozen_aux [IsStrictOrderedRing K] (pow10 : K → K) (ms : List (K × Bool)) : ∀ (t t' : Opt K (Data K)) (ss : List (Sugg K)),
    Good t → Frozen t.alg → trials pow10 alternating t ms = some (ss, t') →
    ∀ s ∈ ss, ∀ k v e, (k, v) ∈ s.changed → (t.params.entries.map (·.1))[k]? = some e → e.values.length ≤ 2 →
      closestTo e.values e.dflt = some v := by
  induction ms with
  | nil =>
    intro t t' ss _ _ h
    simp only [trials, Option.some.injEq, Prod.mk.injEq] at h
    rw [← h.1]; simp
  | cons x r ih =>
    intro t t' ss hg hF h
    obtain ⟨m, g⟩ := x
    obtain ⟨s, t1, ss', ht, hts, rfl⟩ := trials_step h
    obtain ⟨hg1, hps⟩ := good_trial hg ht
    have hrest := ih t1 t' ss' hg1 (frozen_trial hg.restart hF ht) hts
    intro s' hs' k v e hk he hn
    rcases List.mem_cons.1 hs' with c | c
    · rw [c] at hk
      obtain ⟨alg, results, ha, -, -⟩ := trial_norestart hg.restart ht
      obtain ⟨hd, w, hh, hv, hch, -⟩ := make_some ha
      rw [hch] at hk
      have hk2 : k = t.alg.cur ∧ v = w := by simpa using hk
      rw [hk2.1, ← hg.inv.1, List.getElem?_map, hh] at he
      have hpe : hd.param = e := by simpa using he
      rw [hpe] at hv
      have hfh := hF hd (List.mem_of_getElem? hh)
      rw [hpe] at hfh
      rw [nextIndex_two _ _ _ hn] at hv
      simp only at hv
      rw [hfh hn] at hv
      rw [hk2.2]; exact hv
    · rw [← hps] at he
      exact hrest s' c k v e hk he hn

theorem frozen_start [IsStrictOrderedRing K] (p : Params K) : Frozen (start p) := by
  intro h hm _
  simp only [start, List.mem_map] at hm
  obtain ⟨e, -, rfl⟩ := hm
  rfl

/-- nothing throws -/
theorem total_trial {pow10 : K → K} {t : Opt K (Data K)} (hg : Good t) (hc : 0 < t.capacity) (hl : t.results.length ≤ t.capacity)
    (hne : t.params.entries ≠ []) (hv : ∀ e ∈ t.params.entries, e.1.values ≠ []) (m : K) (good : Bool) :
    ∃ s t', trial pow10 alternating t m good = some (s, t') ∧ t'.capacity = t.capacity ∧ t'.results.length ≤ t'.capacity := by
  have hlen : t.alg.hs.length = t.params.entries.length := by
    have := congrArg List.length hg.inv.1
    simpa using this
  have hpos : t.alg.hs ≠ [] := by
    intro e
    apply hne
    rw [e] at hlen
    exact List.eq_nil_of_length_eq_zero hlen.symm
  have hcur := hg.inv.2.2 hpos
  obtain ⟨hd, hh⟩ : ∃ hd, t.alg.hs[t.alg.cur]? = some hd := ⟨_, List.getElem?_eq_getElem hcur⟩
  obtain ⟨en, hen, hpe⟩ := entry_param hg.inv.1 hh
  have hvn : hd.param.values ≠ [] := by rw [← hpe]; exact hv en (List.mem_of_getElem? hen)
  have hid := hg.inv.2.1 hd (List.mem_of_getElem? hh) hvn
  have hni := nextIndex_lt _ _ hd.dir hid
  obtain ⟨v, hvv⟩ : ∃ v, hd.param.values[(nextIndex hd.param.values.length hd.idx hd.dir).1]? = some v :=
    ⟨_, List.getElem?_eq_getElem hni⟩
  have hmk : makeSuggestion t.alg = some ([(t.alg.cur, v)],
      { t.alg with hs := t.alg.hs.set t.alg.cur { hd with dir := (nextIndex hd.param.values.length hd.idx hd.dir).2 } }) := by
    unfold makeSuggestion
    simp only [hh, hvv]
  generalize hs1 : ({ t.alg with hs := t.alg.hs.set t.alg.cur { hd with dir := (nextIndex hd.param.values.length hd.idx hd.dir).2 } } : Data K) = s1 at hmk
  have hsg : alternating.suggest t.params t.alg = some ([(t.alg.cur, v)], s1) := hmk
  unfold trial suggest
  simp only [hsg]
  unfold saveResult saveFull
  simp only
  generalize hres : (⟨[(t.alg.cur, v)], getPoints pow10 t.params, t.params.metrics, withChanged pow10 t.params [(t.alg.cur, v)], m, good⟩ : Result K) = res
  have hpush : ∃ b, push t.capacity t.results res = some b ∧ b.length ≤ t.capacity := by
    unfold push
    by_cases e : t.results.length = t.capacity
    · rw [if_pos e]
      cases hq : t.results with
      | nil => rw [hq] at e; simp at e; omega
      | cons y u => exact ⟨_, rfl, by rw [hq] at e; simp at e ⊢; omega⟩
    · rw [if_neg e]; exact ⟨_, rfl, by simp; omega⟩
  obtain ⟨b, hb, hbl⟩ := hpush
  simp only [hb]
  have hacc : ∃ x p' a, alternating.accept t.params res s1 = some (x, p', a) := by
    show ∃ x p' a, updateSpace t.params res s1 = some (x, p', a)
    unfold updateSpace
    have hh1 : s1.hs[s1.cur]? = some { hd with dir := (nextIndex hd.param.values.length hd.idx hd.dir).2 } := by
      rw [← hs1]; simp only [List.getElem?_set_self hcur]
    have hc1 : s1.cur = t.alg.cur := by rw [← hs1]
    simp only [hh1]
    split
    · rw [hc1]
      simp only [hen]
      rw [hpe, nextIndex_idem _ _ _ hid]
      simp only [hvv]
      have : update1 t.params t.alg.cur v res.mAfter = some ⟨t.params.entries.set t.alg.cur (en.1, v), res.mAfter⟩ := by
        unfold update1 setEntry
        simp only [hen]
      simp only [this]
      exact ⟨_, _, _, rfl⟩
    · exact ⟨_, _, _, rfl⟩
  obtain ⟨x, p', a, hx⟩ := hacc
  have hgood : res.good = good := by rw [← hres]
  unfold applyResult
  rw [hgood]
  cases good with
  | false =>
    simp only [checkRestart]
    rw [if_neg (by simp [hg.restart])]
    exact ⟨_, _, rfl, rfl, hbl⟩
  | true =>
    simp only [hx]
    cases x <;>
    · simp only [checkRestart]
      rw [if_neg (by simp [hg.restart])]
      exact ⟨_, _, rfl, rfl, hbl⟩

/-! ### C135 -/

/-- Every suggestion of a new alternating optimizer, whatever the results, changes exactly one parameter,
to one of its listed values. The parameters are visited in turn, one step for each good result. -/
theorem C135_listed [IsStrictOrderedRing K] (pow10 : K → K) (p : Params K) (capacity : Nat) (ms : List (K × Bool))
    (t' : Opt K (Data K)) (ss : List (Sugg K)) (h : trials pow10 alternating (new p capacity) ms = some (ss, t')) :
    ss.length = ms.length ∧
    ∀ i s, ss[i]? = some s → ∃ v e, s.changed = [(goods (ms.take i) % p.entries.length, v)] ∧
      (p.entries.map (·.1))[goods (ms.take i) % p.entries.length]? = some e ∧ v ∈ e.values := by
  have := listed_aux pow10 ms (new p capacity) t' ss 0 ⟨start_inv p, rfl⟩ (by simp [new, Opt.new, start]) h
  simpa [new, Opt.new] using this

/-- A new alternating optimizer whose parameters all list a value never throws, whatever the results. -/
theorem C135_total [IsStrictOrderedRing K] (pow10 : K → K) (p : Params K) (capacity : Nat) (hc : 0 < capacity)
    (hne : p.entries ≠ []) (hv : ∀ e ∈ p.entries, e.1.values ≠ []) (ms : List (K × Bool)) :
    ∃ ss t', trials pow10 alternating (new p capacity) ms = some (ss, t') := by
  have key : ∀ (ms : List (K × Bool)) (t : Opt K (Data K)), Good t → t.capacity = capacity → t.results.length ≤ t.capacity →
      t.params.entries.map (·.1) = p.entries.map (·.1) → ∃ ss t', trials pow10 alternating t ms = some (ss, t') := by
    intro ms
    induction ms with
    | nil => intro t _ _ _ _; exact ⟨[], t, rfl⟩
    | cons x r ih =>
      intro t hg h1 h2 h3
      obtain ⟨m, g⟩ := x
      have hne' : t.params.entries ≠ [] := by
        intro e
        rw [e] at h3
        exact hne (List.map_eq_nil_iff.1 h3.symm)
      have hv' : ∀ e ∈ t.params.entries, e.1.values ≠ [] := by
        intro e he
        have : e.1 ∈ t.params.entries.map (·.1) := List.mem_map_of_mem he
        rw [h3, List.mem_map] at this
        obtain ⟨e', he', heq⟩ := this
        rw [← heq]; exact hv e' he'
      obtain ⟨s, t1, ht, hcap, hres⟩ := total_trial (pow10 := pow10) hg (by omega) h2 hne' hv' m g
      obtain ⟨hg1, hps⟩ := good_trial hg ht
      obtain ⟨ss, t', hts⟩ := ih t1 hg1 (by omega) hres (hps.trans h3)
      exact ⟨s :: ss, t', by simp only [trials, ht, hts]⟩
  exact key ms (new p capacity) ⟨start_inv p, rfl⟩ rfl (by simp [new, Opt.new]) rfl

/-- The code never tries the other value of a parameter with two values: every suggestion for it is the
value closest to the default. -/
theorem C135_two_fails [IsStrictOrderedRing K] (pow10 : K → K) (p : Params K) (capacity : Nat) (ms : List (K × Bool))
    (t' : Opt K (Data K)) (ss : List (Sugg K)) (h : trials pow10 alternating (new p capacity) ms = some (ss, t')) :
    ∀ s ∈ ss, ∀ k v e, (k, v) ∈ s.changed → (p.entries.map (·.1))[k]? = some e → e.values.length ≤ 2 →
      closestTo e.values e.dflt = some v :=
  frozen_aux pow10 ms (new p capacity) t' ss ⟨start_inv p, rfl⟩ (frozen_start p) h

/-- The points in use change only for a result that is good and better than the metrics in use, if the
optimizer was made with listed values closest to the defaults. -/
theorem C135_better_partial [IsStrictOrderedRing K] (pow10 : K → K) (p : Params K) (capacity : Nat)
    (hp : ∀ e ∈ p.entries, closestTo e.1.values e.1.dflt = some e.2)
    (ms : List (K × Bool)) (t t' : Opt K (Data K)) (ss : List (Sugg K)) (s : Sugg K) (m : K) (good : Bool)
    (h : trials pow10 alternating (new p capacity) ms = some (ss, t))
    (h' : trial pow10 alternating t m good = some (s, t')) :
    getPoints pow10 t'.params = getPoints pow10 t.params ∨
      (getPoints pow10 t'.params = s.after ∧ t'.params.metrics = m ∧ good = true ∧
        (t.params.metrics < 0 ∨ m < t.params.metrics)) := by
  have key : ∀ (ms : List (K × Bool)) (t0 t : Opt K (Data K)) (ss : List (Sugg K)), Good t0 → Linked t0 →
      trials pow10 alternating t0 ms = some (ss, t) → Good t ∧ Linked t := by
    intro ms
    induction ms with
    | nil =>
      intro t0 t ss hg hl h
      simp only [trials, Option.some.injEq, Prod.mk.injEq] at h
      rw [← h.2]; exact ⟨hg, hl⟩
    | cons x r ih =>
      intro t0 t ss hg hl h
      obtain ⟨m, g⟩ := x
      obtain ⟨s, t1, ss', ht, hts, -⟩ := trials_step h
      exact ih t1 t ss' (good_trial hg ht).1 (linked_trial hg hl ht).1 hts
  have h0 : Good (new p capacity) ∧ Linked (new p capacity) := by
    refine ⟨⟨start_inv p, rfl⟩, ?_⟩
    intro i hd e hi he
    simp only [new, Opt.new, start, List.getElem?_map] at hi he
    rw [he] at hi
    simp only [Option.map_some, Option.some.injEq] at hi
    rw [← hi]
    exact hp e (List.mem_of_getElem? he)
  obtain ⟨hg, hl⟩ := key ms _ _ _ h0.1 h0.2 h
  exact (linked_trial hg hl h').2

/-- The code repeats a suggestion whose result was bad: after a bad result the next suggestion changes the
same parameter to the same value, for every state of the optimizer met without restarts. -/
theorem C135_repeat_fails (pow10 : K → K) (t t' t'' : Opt K (Data K)) (s s' : Sugg K) (m : K)
    (hI : Inv (t.params.entries.map (·.1)) t.alg) (hr : t.restart = false)
    (h : trial pow10 alternating t m false = some (s, t')) (h' : suggest pow10 alternating t' = some (s', t'')) :
    s'.changed = s.changed ∧ s'.after = s.after := by
  obtain ⟨alg, results, ha, haf, hap⟩ := trial_norestart hr h
  obtain ⟨hd, v, hh, hv, hch, e⟩ := make_some ha
  have hid := hI.2.1 hd (List.mem_of_getElem? hh) (vals_lt hv)
  have hlt : t.alg.cur < t.alg.hs.length := by rw [List.getElem?_eq_some_iff] at hh; exact hh.1
  simp only [applyResult, Option.some.injEq] at hap
  obtain ⟨alg2, ha2, -, hs2⟩ := suggest_some h'
  obtain ⟨hd2, v2, hh2, hv2, hch2, -⟩ := make_some ha2
  have e1 : t'.params = t.params := by rw [← hap]
  have e2 : t'.alg = alg := by rw [← hap]
  rw [e2, e] at hh2 hch2
  simp only [List.getElem?_set_self hlt, Option.some.injEq] at hh2 hch2
  rw [← hh2] at hv2
  simp only at hv2
  rw [nextIndex_idem _ _ _ hid, hv] at hv2
  have hvv : v = v2 := Option.some.inj hv2
  have hcc : s'.changed = s.changed := by rw [hch2, hch, hvv]
  refine ⟨hcc, ?_⟩
  rw [haf, hs2, ← hcc, e1]

end

def demoA : Params ℚ := ⟨[(demoTau, 2), (⟨"fill", [0, 5, 7, 9], 5, .dflt⟩, 5)], -1⟩

/-- four good uses and a bad one: the values tried -/
example : (trials id alternating (new demoA 5) [(10, true), (12, true), (8, true), (11, false), (7, true)]).map
    (fun x => (x.1.map (·.changed), getPoints id x.2.params, x.2.params.metrics)) =
    some ([[(0, 3)], [(1, 7)], [(0, 2)], [(1, 5)], [(1, 5)]], [⟨"tau", 2⟩, ⟨"fill", 5⟩], 7) := by decide +kernel

/-- two values: the second is never suggested -/
example : (trials id alternating (new ⟨[(⟨"reorder", [(0 : ℚ), 1], 0, .dflt⟩, 0)], -1⟩ 5) [(10, true), (12, true), (13, true), (9, true)]).map
    (fun x => x.1.map (·.changed)) = some [[(0, 0)], [(0, 0)], [(0, 0)], [(0, 0)]] := by decide +kernel

example : ∀ e ∈ demoA.entries, closestTo e.1.values e.1.dflt = some e.2 := by decide +kernel

/-- The code does not keep this for an optimizer made with a value that is not listed: the listed value
closest to it is taken although its metrics is worse. -/
theorem C135_better_fails : ∃ (p : Params ℚ) (t t' : Opt ℚ (Data ℚ)) (ss : List (Sugg ℚ)) (s : Sugg ℚ) (ms : List (ℚ × Bool)) (m : ℚ),
    trials id alternating (new p 5) ms = some (ss, t) ∧ trial id alternating t m true = some (s, t') ∧
    getPoints id t'.params ≠ getPoints id t.params ∧ 0 ≤ t.params.metrics ∧ t.params.metrics < m := by
  have h : (trials id alternating (new ⟨[(⟨"tau", [1, 2, 3], 9/4, .dflt⟩, 9/4)], 4⟩ 5) [((6 : ℚ), true)]).bind
      (fun x => (trial id alternating x.2 7 true).map (fun y =>
        decide (getPoints id y.2.params ≠ getPoints id x.2.params ∧ 0 ≤ x.2.params.metrics ∧ x.2.params.metrics < 7))) = some true := by
    decide +kernel
  cases hx : trials id alternating (new ⟨[(⟨"tau", [1, 2, 3], 9/4, .dflt⟩, 9/4)], 4⟩ 5) [((6 : ℚ), true)] with
  | none => rw [hx] at h; cases h
  | some x =>
    rw [hx] at h
    cases hy : trial id alternating x.2 7 true with
    | none => simp only [Option.bind_some, hy] at h; cases h
    | some y =>
      simp only [Option.bind_some, hy, Option.map_some, Option.some.injEq, decide_eq_true_eq] at h
      exact ⟨_, x.2, y.2, x.1, y.1, _, 7, hx, hy, h.1, h.2.1, h.2.2⟩

/-- The code does not keep this after a restart: the restart changes the values in use but not the
position of the search, so a later use returns to the old value although its metrics is worse. -/
theorem C135_restart_fails : ∃ (p : Params ℚ) (t t' : Opt ℚ (Data ℚ)) (ss : List (Sugg ℚ)) (s : Sugg ℚ) (ms : List (ℚ × Bool)) (m : ℚ),
    (∀ e ∈ p.entries, closestTo e.1.values e.1.dflt = some e.2) ∧
    trials id alternating (setRestartStrategy (new p 5) true 0) ms = some (ss, t) ∧
    trial id alternating t m true = some (s, t') ∧
    getPoints id t'.params ≠ getPoints id t.params ∧ 0 ≤ t.params.metrics ∧ t.params.metrics < m := by
  have h : (trials id alternating (setRestartStrategy (new ⟨[(demoTau, 2)], 4⟩ 5) true 0) [((6 : ℚ), true)]).bind
      (fun x => (trial id alternating x.2 7 true).map (fun y =>
        decide (getPoints id y.2.params ≠ getPoints id x.2.params ∧ 0 ≤ x.2.params.metrics ∧ x.2.params.metrics < 7))) = some true := by
    decide +kernel
  cases hx : trials id alternating (setRestartStrategy (new ⟨[(demoTau, 2)], 4⟩ 5) true 0) [((6 : ℚ), true)] with
  | none => rw [hx] at h; cases h
  | some x =>
    rw [hx] at h
    cases hy : trial id alternating x.2 7 true with
    | none => simp only [Option.bind_some, hy] at h; cases h
    | some y =>
      simp only [Option.bind_some, hy, Option.map_some, Option.some.injEq, decide_eq_true_eq] at h
      exact ⟨_, x.2, y.2, x.1, y.1, _, 7, by decide +kernel, hx, hy, h.1, h.2.1, h.2.2⟩

end Verif.Optim.Alternating
