import Verif.Optim.Alternating

/-!
The annealing optimizer: Source/Optimizer/optimizers/annealing/annealing.cpp. It visits the parameters in
turn and moves each by a random amount.

The random numbers and the temperature enter only through the factors `z` (L151, L171) and through the
outcome of `alpha < et` (L230); both are arbitrary sequences here. The settings of a parameter (L57-105)
are given. Exact arithmetic instead of `double`.
-/

namespace Verif.Optim.Annealing

open Verif.Optim.Alternating (trials_step trial_norestart goods update_one)

/-- settings of a parameter (annealing.h L43-45) -/
structure Cfg (K : Type) where
  strict : Bool
  closest : Bool
  barrier : K

/-- `AnnealingParameterHandler` (annealing.h L23-45). Simplified: `count` and the temperatures only
determine the random factors. -/
structure Handler (K : Type) where
  param : Param K
  value : K
  cfg : Cfg K

/-- data of `AnnealingOptimizer` (annealing.h L76-79); `zs n` are the factors drawn by the `n`-th call that
needs random numbers, `luck n` is the outcome of `alpha < et` in that call -/
structure Data (K : Type) where
  cur : Nat
  hs : List (Handler K)
  n : Nat
  zs : Nat → List K
  luck : Nat → Bool

/-- outcome of `GetNextValue`: a number, not a number, or no factor drawn so far is admissible -/
inductive Out (K : Type) where
  | val (v : K)
  | nan
  | more
  deriving DecidableEq

section
variable {K : Type} [Field K] [LinearOrder K]

/-- `bound` (annealing.cpp L155-166) -/
def bound (strict : Bool) (a b current : K) : K :=
  if strict then (if b - current < current - a then 2 * (b - current) else 2 * (current - a)) else b - a

/-- the loop (annealing.cpp L168-173): the first admissible value -/
def draw (current bnd a b : K) : List K → Option K
  | [] => none
  | z :: r => if a ≤ current + z * bnd ∧ current + z * bnd ≤ b then some (current + z * bnd) else draw current bnd a b r

/-- limit of the jump (annealing.cpp L175-184); `none`: not a number, the interval is a point -/
def limit (barrier a b current next : K) : Option K :=
  if 0 < barrier then
    if b - a = 0 then none
    else
      let normalizedCurrent := (current - a) / (b - a)
      let normalizedNext := (next - a) / (b - a)
      let normalizedNext' :=
        if |normalizedNext - normalizedCurrent| > barrier then
          normalizedCurrent + barrier * (normalizedNext - normalizedCurrent)
        else normalizedNext
      some (normalizedNext' * (b - a) + a)
  else some next

/-- `AnnealingParameterHandler::GetNextValue` (annealing.cpp L146-191); `none`: `values.at(0)` throws in a
function that must not throw. With `use_closest` and not a number, all comparisons of `min_element` are
false and the first value is returned. -/
def getNextValue (h : Handler K) (zs : List K) : Option (Out K) :=
  match h.param.values.head?, h.param.values.getLast? with
  | some a, some b =>
    match draw h.value (bound h.cfg.strict a b h.value) a b zs with
    | none => some .more
    | some next =>
      match limit h.cfg.barrier a b h.value next with
      | none => if h.cfg.closest then some (.val a) else some .nan
      | some next =>
        if h.cfg.closest then
          match closestTo h.param.values next with
          | none => none
          | some v => some (.val v)
        else some (.val next)
  | _, _ => none

/-- `AlgorithmMakeSuggestion` (annealing.cpp L215-217). Simplified: a value that is not a number and a
drawing that does not end are `none`. -/
def makeSuggestion (s : Data K) : Option (List (Nat × K) × Data K) :=
  match s.hs[s.cur]? with
  | none => none
  | some h =>
    match getNextValue h (s.zs s.n) with
    | some (.val v) => some ([(s.cur, v)], { s with n := s.n + 1 })
    | _ => none

/-- `UpdateSpaceWithLatestResults` (annealing.cpp L219-240); `none`: `at` throws -/
def updateSpace (p : Params K) (r : Result K) (s : Data K) : Option (Bool × Params K × Data K) :=
  match s.hs[s.cur]? with
  | none => none
  | some h =>
    if r.good = true ∧ (r.mBefore < 0 ∨ r.mAfter - r.mBefore < 0 ∨ s.luck s.n = true) then
      match r.changed[0]? with
      | none => none
      | some c =>
        match update1 p s.cur c.2 r.mAfter with
        | none => none
        | some p' =>
          some (true, p', { s with cur := (s.cur + 1) % s.hs.length, hs := s.hs.set s.cur { h with value := c.2 }, n := s.n + 1 })
    else some (false, p, { s with cur := (s.cur + 1) % s.hs.length, n := s.n + 1 })

/-- the annealing optimizer -/
def annealing : Algo K (Data K) where
  suggest := fun _ s => makeSuggestion s
  accept := updateSpace

/-- constructors (annealing.cpp L47-48, L206-213) -/
def start (cfg : Param K → Cfg K) (zs : Nat → List K) (luck : Nat → Bool) (p : Params K) : Data K :=
  ⟨0, p.entries.map fun e => ⟨e.1, e.1.dflt, cfg e.1⟩, 0, zs, luck⟩

/-- a new annealing optimizer -/
def new (cfg : Param K → Cfg K) (zs : Nat → List K) (luck : Nat → Bool) (p : Params K) (capacity : Nat) : Opt K (Data K) :=
  Opt.new p capacity (start cfg zs luck p)

/-! ### specification -/

/-- `v` lies between the first and the last listed value -/
def Within (e : Param K) (v : K) : Prop :=
  ∃ a b, e.values.head? = some a ∧ e.values.getLast? = some b ∧ a ≤ v ∧ v ≤ b

/-- all listed values lie between the first and the last one -/
def Bounded (e : Param K) : Prop := ∀ x ∈ e.values, Within e x

/-! ### helpers -/

omit [Field K] in
theorem within_of {e : Param K} {a b v : K} (ha : e.values.head? = some a) (hb : e.values.getLast? = some b)
    (hw : Within e v) : a ≤ v ∧ v ≤ b := by
  obtain ⟨a', b', h1, h2, h3, h4⟩ := hw
  rw [ha] at h1; rw [hb] at h2
  cases h1; cases h2
  exact ⟨h3, h4⟩

theorem draw_some {current bnd a b : K} : ∀ {zs : List K} {v : K}, draw current bnd a b zs = some v → a ≤ v ∧ v ≤ b := by
  intro zs
  induction zs with
  | nil => intro v h; simp [draw] at h
  | cons z r ih =>
    intro v h
    simp only [draw] at h
    by_cases c : a ≤ current + z * bnd ∧ current + z * bnd ≤ b
    · rw [if_pos c, Option.some.injEq] at h
      rw [← h]; exact c
    · rw [if_neg c] at h; exact ih h

theorem limit_some [IsStrictOrderedRing K] {barrier a b current next v : K} (hc : a ≤ current ∧ current ≤ b)
    (hn : a ≤ next ∧ next ≤ b) (h : limit barrier a b current next = some v) :
    a ≤ v ∧ v ≤ b ∧ (0 < barrier → |v - current| ≤ barrier * (b - a)) := by
  unfold limit at h
  by_cases c : 0 < barrier
  · rw [if_pos c] at h
    by_cases e : b - a = 0
    · rw [if_pos e] at h; cases h
    · rw [if_neg e] at h
      simp only [Option.some.injEq] at h
      have hab : 0 < b - a := lt_of_le_of_ne (by linarith [hc.1, hc.2]) (Ne.symm e)
      have hd : (next - a) / (b - a) - (current - a) / (b - a) = (next - current) / (b - a) := by
        rw [← sub_div]; congr 1; ring
      have habs : |(next - current) / (b - a)| = |next - current| / (b - a) := by
        rw [abs_div, abs_of_pos hab]
      rw [hd, habs] at h
      by_cases g : |next - current| / (b - a) > barrier
      · rw [if_pos g] at h
        have hv : v = current + barrier * (next - current) := by
          rw [← h]; field_simp; ring
        have h1 : barrier < 1 := by
          have : |next - current| ≤ b - a := by rw [abs_le]; constructor <;> linarith [hc.1, hc.2, hn.1, hn.2]
          have : |next - current| / (b - a) ≤ 1 := by rw [div_le_one hab]; exact this
          linarith
        have hjump : |v - current| ≤ barrier * (b - a) := by
          rw [hv, add_sub_cancel_left, abs_mul, abs_of_pos c]
          apply mul_le_mul_of_nonneg_left _ c.le
          rw [abs_le]; constructor <;> linarith [hc.1, hc.2, hn.1, hn.2]
        refine ⟨?_, ?_, fun _ => hjump⟩
        · rw [hv]; nlinarith [hc.1, hc.2, hn.1, hn.2]
        · rw [hv]; nlinarith [hc.1, hc.2, hn.1, hn.2]
      · rw [if_neg g] at h
        have hv : v = next := by
          rw [← h]; field_simp; ring
        rw [hv]
        refine ⟨hn.1, hn.2, fun _ => ?_⟩
        have := not_lt.1 g
        rw [div_le_iff₀ hab] at this
        exact this
  · rw [if_neg c, Option.some.injEq] at h
    rw [← h]
    exact ⟨hn.1, hn.2, fun hb => absurd hb c⟩

/-- what a suggested value satisfies -/
theorem next_val [IsStrictOrderedRing K] {h : Handler K} {zs : List K} {v : K} (hw : Within h.param h.value) (hb : Bounded h.param)
    (hv : getNextValue h zs = some (.val v)) :
    Within h.param v ∧ (h.cfg.closest = true → v ∈ h.param.values) ∧
    (h.cfg.closest = false → 0 < h.cfg.barrier → ∀ a b, h.param.values.head? = some a → h.param.values.getLast? = some b →
      |v - h.value| ≤ h.cfg.barrier * (b - a)) := by
  obtain ⟨a, b, ha, hbl, h1, h2⟩ := hw
  unfold getNextValue at hv
  simp only [ha, hbl] at hv
  cases hd : draw h.value (bound h.cfg.strict a b h.value) a b zs with
  | none => simp only [hd] at hv; cases hv
  | some next =>
    simp only [hd] at hv
    have hn := draw_some hd
    cases hl : limit h.cfg.barrier a b h.value next with
    | none =>
      simp only [hl] at hv
      by_cases c : h.cfg.closest = true
      · simp only [c, if_true, Option.some.injEq, Out.val.injEq] at hv
        rw [← hv]
        have hm : a ∈ h.param.values := List.mem_of_head? ha
        exact ⟨hb a hm, fun _ => hm, fun h => by rw [c] at h; cases h⟩
      · simp only [c] at hv; cases hv
    | some w =>
      simp only [hl] at hv
      have hlim := limit_some ⟨h1, h2⟩ hn hl
      by_cases c : h.cfg.closest = true
      · simp only [c, if_true] at hv
        cases hcl : closestTo h.param.values w with
        | none => simp only [hcl] at hv; cases hv
        | some u =>
          simp only [hcl, Option.some.injEq, Out.val.injEq] at hv
          rw [← hv]
          have hm : u ∈ h.param.values := List.mem_of_getElem? hcl
          exact ⟨hb u hm, fun _ => hm, fun h => by rw [c] at h; cases h⟩
      · simp only [c] at hv
        have hvw : w = v := by simpa using hv
        rw [← hvw]
        refine ⟨⟨a, b, ha, hbl, hlim.1, hlim.2.1⟩, fun h => absurd h c, ?_⟩
        intro _ hpos a' b' ha' hb'
        rw [ha] at ha'; rw [hbl] at hb'
        cases ha'; cases hb'
        exact hlim.2.2 hpos

/-- invariant of the data -/
def Inv (cfg : Param K → Cfg K) (ps : List (Param K)) (s : Data K) : Prop :=
  s.hs.map (·.param) = ps ∧ (∀ h ∈ s.hs, Within h.param h.value ∧ Bounded h.param ∧ h.cfg = cfg h.param) ∧
  (s.hs ≠ [] → s.cur < s.hs.length)

theorem make_some {s s1 : Data K} {ch : List (Nat × K)} (h : makeSuggestion s = some (ch, s1)) :
    ∃ hd v, s.hs[s.cur]? = some hd ∧ getNextValue hd (s.zs s.n) = some (.val v) ∧ ch = [(s.cur, v)] ∧
      s1 = { s with n := s.n + 1 } := by
  unfold makeSuggestion at h
  cases hh : s.hs[s.cur]? with
  | none => simp only [hh] at h; cases h
  | some hd =>
    simp only [hh] at h
    cases hv : getNextValue hd (s.zs s.n) with
    | none => simp only [hv] at h; cases h
    | some o =>
      cases o with
      | val v =>
        simp only [hv, Option.some.injEq, Prod.mk.injEq] at h
        exact ⟨hd, v, rfl, hv, h.1.symm, h.2.symm⟩
      | nan => simp only [hv] at h; cases h
      | more => simp only [hv] at h; cases h

theorem update_some {p p' : Params K} {r : Result K} {s s' : Data K} {b : Bool}
    (h : updateSpace p r s = some (b, p', s')) :
    ∃ hd, s.hs[s.cur]? = some hd ∧
      ((b = false ∧ p' = p ∧ s' = { s with cur := (s.cur + 1) % s.hs.length, n := s.n + 1 }) ∨
       (b = true ∧ r.good = true ∧ ∃ c, r.changed[0]? = some c ∧ update1 p s.cur c.2 r.mAfter = some p' ∧
         s' = { s with cur := (s.cur + 1) % s.hs.length, hs := s.hs.set s.cur { hd with value := c.2 }, n := s.n + 1 })) := by
  unfold updateSpace at h
  cases hh : s.hs[s.cur]? with
  | none => simp only [hh] at h; cases h
  | some hd =>
    simp only [hh] at h
    refine ⟨hd, rfl, ?_⟩
    by_cases c : r.good = true ∧ (r.mBefore < 0 ∨ r.mAfter - r.mBefore < 0 ∨ s.luck s.n = true)
    · rw [if_pos c] at h
      cases hc : r.changed[0]? with
      | none => simp only [hc] at h; cases h
      | some x =>
        simp only [hc] at h
        cases hu : update1 p s.cur x.2 r.mAfter with
        | none => simp only [hu] at h; cases h
        | some q =>
          simp only [hu, Option.some.injEq, Prod.mk.injEq] at h
          obtain ⟨h1, h2, h3⟩ := h
          subst h2
          exact Or.inr ⟨h1.symm, c.1, x, rfl, hu, h3.symm⟩
    · rw [if_neg c] at h
      simp only [Option.some.injEq, Prod.mk.injEq] at h
      exact Or.inl ⟨h.1.symm, h.2.1.symm, h.2.2.symm⟩

theorem faithful [IsStrictOrderedRing K] (cfg : Param K → Cfg K) : Faithful (annealing (K := K)) (Inv cfg) where
  nodup := by
    intro p s ch s1 h
    obtain ⟨hd, v, -, -, e, -⟩ := make_some h
    rw [e]; simp
  declined := by
    intro p r s p' s' h
    obtain ⟨hd, -, h2⟩ := update_some h
    rcases h2 with ⟨-, e, -⟩ | ⟨e, -⟩
    · exact e
    · cases e
  accepted := by
    intro p s ch s1 r p' s' hI hs hr h
    obtain ⟨hd, v, hh, hv, hch, e⟩ := make_some hs
    subst e
    obtain ⟨hd', hh', h2⟩ := update_some h
    rcases h2 with ⟨e, -⟩ | ⟨-, -, c, hc, hu, -⟩
    · cases e
    · rw [hr, hch] at hc
      have hcc : c = (s.cur, v) := by simpa using hc.symm
      rw [hcc] at hu
      rw [hch, update_one]
      exact hu
  suggest_inv := by
    intro p s ch s1 hI h
    obtain ⟨hd, v, hh, hv, hch, e⟩ := make_some h
    subst e
    exact hI
  accept_inv := by
    intro p s ch s1 r b p' s' hI hs hr h
    obtain ⟨hd, v, hh, hv, hch, e⟩ := make_some hs
    subst e
    obtain ⟨i1, i2, i3⟩ := hI
    have hpos : s.hs ≠ [] → (s.cur + 1) % s.hs.length < s.hs.length := by
      intro hn
      exact Nat.mod_lt _ (List.length_pos_of_ne_nil hn)
    obtain ⟨hd', hh', h2⟩ := update_some h
    rcases h2 with ⟨-, -, e⟩ | ⟨-, -, c, hc, hu, e⟩
    · rw [e]
      exact ⟨i1, i2, hpos⟩
    · rw [hr, hch] at hc
      have hcc : c = (s.cur, v) := by simpa using hc.symm
      have hdd : hd' = hd := by
        have h1 : s.hs[s.cur]? = some hd' := hh'
        rw [hh] at h1
        exact (Option.some.inj h1).symm
      rw [e, hcc, hdd]
      have hi := i2 hd (List.mem_of_getElem? hh)
      refine ⟨?_, ?_, ?_⟩
      · rw [← i1]
        simp only
        rw [List.map_set]
        apply List.ext_getElem?
        intro i
        rw [List.getElem?_set]
        by_cases c1 : s.cur = i
        · subst c1
          simp only [if_true, List.length_map, List.getElem?_map, hh, Option.map_some]
          rw [if_pos (by rw [List.getElem?_eq_some_iff] at hh; exact hh.1)]
        · rw [if_neg c1]
      · intro h hm
        rcases List.mem_or_eq_of_mem_set hm with g | g
        · exact i2 h g
        · rw [g]
          exact ⟨(next_val hi.1 hi.2.1 hv).1, hi.2.1, hi.2.2⟩
      · intro hn
        simp only [List.length_set]
        apply hpos
        intro e0
        apply hn
        simp only [e0, List.set_nil]

/-- values in use are those of the handlers -/
def Linked (t : Opt K (Data K)) : Prop := t.alg.hs.map (·.value) = t.params.entries.map (·.2)

theorem linked_trial [IsStrictOrderedRing K] {pow10 : K → K} {t t' : Opt K (Data K)} {m : K} {good : Bool} {s : Sugg K}
    (hr : t.restart = false) (hl : Linked t) (h : trial pow10 annealing t m good = some (s, t')) :
    Linked t' ∧ t'.alg.cur = if good then (t.alg.cur + 1) % t.params.entries.length else t.alg.cur := by
  have hlen : t.alg.hs.length = t.params.entries.length := by
    have := congrArg List.length hl
    simpa using this
  obtain ⟨alg, results, ha, haf, hap⟩ := trial_norestart hr h
  obtain ⟨hd, v, hh, hv, hch, e⟩ := make_some ha
  unfold applyResult at hap
  cases good with
  | false =>
    simp only [Option.some.injEq] at hap
    rw [← hap, e]
    exact ⟨hl, rfl⟩
  | true =>
    simp only at hap
    cases hx : annealing.accept t.params ⟨s.changed, getPoints pow10 t.params, t.params.metrics, s.after, m, true⟩ alg with
    | none => simp only [hx] at hap; cases hap
    | some x =>
      obtain ⟨b, p, a⟩ := x
      have hta : t'.alg = a ∧ t'.params = p := by
        cases b <;> simp only [hx, Option.some.injEq] at hap <;> rw [← hap] <;> exact ⟨rfl, rfl⟩
      obtain ⟨hd', hh', h2⟩ := update_some hx
      rcases h2 with ⟨-, e1, ea⟩ | ⟨-, -, c, hc, hu, ea⟩
      · unfold Linked
        rw [hta.1, hta.2, e1, ea, e, ← hlen]
        exact ⟨hl, rfl⟩
      · rw [hch] at hc
        have hcc : c = (t.alg.cur, v) := by simpa using hc.symm
        rw [e, hcc] at hu
        unfold update1 at hu
        cases hq : setEntry t.params.entries t.alg.cur v with
        | none => simp only [hq] at hu; cases hu
        | some q =>
          simp only [hq, Option.some.injEq] at hu
          obtain ⟨e3, he3, hq3⟩ := setEntry_some hq
          unfold Linked
          rw [hta.1, hta.2, ea, e, ← hlen, ← hu, hq3, hcc]
          refine ⟨?_, rfl⟩
          simp only [List.map_set]
          rw [show t.alg.hs.map (·.value) = t.params.entries.map (·.2) from hl]

theorem uses_aux [IsStrictOrderedRing K] (pow10 : K → K) (cfg : Param K → Cfg K) (ms : List (K × Bool)) :
    ∀ (t t' : Opt K (Data K)) (ss : List (Sugg K)), Inv cfg (t.params.entries.map (·.1)) t.alg → t.restart = false → Linked t →
    trials pow10 annealing t ms = some (ss, t') →
    Inv cfg (t'.params.entries.map (·.1)) t'.alg ∧ t'.restart = false ∧ Linked t' ∧
      t'.params.entries.map (·.1) = t.params.entries.map (·.1) := by
  induction ms with
  | nil =>
    intro t t' ss hI hr hl h
    simp only [trials, Option.some.injEq, Prod.mk.injEq] at h
    rw [← h.2]; exact ⟨hI, hr, hl, rfl⟩
  | cons x r ih =>
    intro t t' ss hI hr hl h
    obtain ⟨m, g⟩ := x
    obtain ⟨s, t1, ss', ht, hts, rfl⟩ := trials_step h
    obtain ⟨alg, results, ha, -, hap⟩ := trial_norestart hr ht
    obtain ⟨-, c2, -, -, c5⟩ := apply_cases (faithful cfg) hap
    have hal := apply_alg (faithful cfg) (s := t.alg) (ch := s.changed) (by exact hI) (by exact ha) rfl hap
    have hps : t1.params.entries.map (·.1) = t.params.entries.map (·.1) := by
      rcases c5 with ⟨e1, -⟩ | ⟨-, -, a, e3, e4⟩
      · rw [show t1.params = t.params from e1]
      · exact update_params ((faithful cfg).accepted _ _ _ _ _ _ _ hI ha rfl e3)
    have := ih t1 t' ss' (by rw [hps]; exact hal) (c2.trans hr) (linked_trial hr hl ht).1 hts
    exact ⟨this.1, this.2.1, this.2.2.1, this.2.2.2.trans hps⟩

/-! ### C136 -/

/-- Every suggestion of the annealing optimizer, after any history of uses and for any random numbers,
changes exactly one parameter, to a value between its first and last listed values; if asked for, it is
one of the listed values; otherwise it differs from the value in use by at most the given part of the
range. The optimizer was made with the default values, which lie in the range. -/
theorem C136_jump [IsStrictOrderedRing K] (pow10 : K → K) (cfg : Param K → Cfg K) (zs : Nat → List K) (luck : Nat → Bool)
    (p : Params K) (capacity : Nat) (hp : ∀ e ∈ p.entries, e.2 = e.1.dflt ∧ Within e.1 e.1.dflt ∧ Bounded e.1)
    (ms : List (K × Bool)) (t t' : Opt K (Data K)) (ss : List (Sugg K)) (s : Sugg K)
    (h : trials pow10 annealing (new cfg zs luck p capacity) ms = some (ss, t))
    (h' : suggest pow10 annealing t = some (s, t')) :
    ∃ k v e x, s.changed = [(k, v)] ∧ t.params.entries[k]? = some (e, x) ∧ Within e v ∧
      ((cfg e).closest = true → v ∈ e.values) ∧
      ((cfg e).closest = false → 0 < (cfg e).barrier → ∀ a b, e.values.head? = some a → e.values.getLast? = some b →
        |v - x| ≤ (cfg e).barrier * (b - a)) := by
  have h0 : Inv cfg ((new cfg zs luck p capacity).params.entries.map (·.1)) (new cfg zs luck p capacity).alg ∧
      Linked (new cfg zs luck p capacity) := by
    refine ⟨⟨by simp [new, Opt.new, start], ?_, ?_⟩, ?_⟩
    · intro hd hm
      simp only [new, Opt.new, start, List.mem_map] at hm
      obtain ⟨e, he, rfl⟩ := hm
      exact ⟨(hp e he).2.1, (hp e he).2.2, rfl⟩
    · intro hn
      exact List.length_pos_of_ne_nil hn
    · simp only [Linked, new, Opt.new, start, List.map_map]
      apply List.map_congr_left
      intro e he
      exact (hp e he).1.symm
  obtain ⟨hI, hr, hl, hps⟩ := uses_aux pow10 cfg ms _ t ss h0.1 rfl h0.2 h
  obtain ⟨alg, ha, -, -⟩ := suggest_some h'
  obtain ⟨hd, v, hh, hv, hch, -⟩ := make_some ha
  have hi := hI.2.1 hd (List.mem_of_getElem? hh)
  have hn := next_val hi.1 hi.2.1 hv
  have hpar : (t.params.entries.map (·.1))[t.alg.cur]? = some hd.param := by
    rw [← hI.1, List.getElem?_map, hh]; rfl
  have hval : (t.params.entries.map (·.2))[t.alg.cur]? = some hd.value := by
    rw [← show t.alg.hs.map (·.value) = t.params.entries.map (·.2) from hl, List.getElem?_map, hh]; rfl
  rw [List.getElem?_map] at hpar hval
  cases he : t.params.entries[t.alg.cur]? with
  | none => rw [he] at hpar; cases hpar
  | some en =>
    rw [he] at hpar hval
    have e1 : en.1 = hd.param := by simpa using hpar
    have e2 : en.2 = hd.value := by simpa using hval
    refine ⟨t.alg.cur, v, en.1, en.2, hch, he, ?_, ?_, ?_⟩
    · rw [e1]; exact hn.1
    · rw [e1, ← hi.2.2]; exact hn.2.1
    · rw [e1, e2, ← hi.2.2]; exact hn.2.2

/-- Whatever the history, the values in use lie between the first and last listed values. -/
theorem C136_within [IsStrictOrderedRing K] (pow10 : K → K) (cfg : Param K → Cfg K) (zs : Nat → List K) (luck : Nat → Bool)
    (p : Params K) (capacity : Nat) (hp : ∀ e ∈ p.entries, e.2 = e.1.dflt ∧ Within e.1 e.1.dflt ∧ Bounded e.1)
    (ms : List (K × Bool)) (t : Opt K (Data K)) (ss : List (Sugg K))
    (h : trials pow10 annealing (new cfg zs luck p capacity) ms = some (ss, t)) :
    t.params.entries.map (·.1) = p.entries.map (·.1) ∧ ∀ en ∈ t.params.entries, Within en.1 en.2 := by
  have h0 : Inv cfg ((new cfg zs luck p capacity).params.entries.map (·.1)) (new cfg zs luck p capacity).alg ∧
      Linked (new cfg zs luck p capacity) := by
    refine ⟨⟨by simp [new, Opt.new, start], ?_, ?_⟩, ?_⟩
    · intro hd hm
      simp only [new, Opt.new, start, List.mem_map] at hm
      obtain ⟨e, he, rfl⟩ := hm
      exact ⟨(hp e he).2.1, (hp e he).2.2, rfl⟩
    · intro hn
      exact List.length_pos_of_ne_nil hn
    · simp only [Linked, new, Opt.new, start, List.map_map]
      apply List.map_congr_left
      intro e he
      exact (hp e he).1.symm
  obtain ⟨hI, hr, hl, hps⟩ := uses_aux pow10 cfg ms _ t ss h0.1 rfl h0.2 h
  refine ⟨hps, ?_⟩
  intro en hen
  obtain ⟨i, hi⟩ := List.getElem?_of_mem hen
  have h1 : (t.alg.hs.map (·.param))[i]? = some en.1 := by rw [hI.1, List.getElem?_map, hi]; rfl
  have h2 : (t.alg.hs.map (·.value))[i]? = some en.2 := by
    rw [show t.alg.hs.map (·.value) = t.params.entries.map (·.2) from hl, List.getElem?_map, hi]; rfl
  rw [List.getElem?_map] at h1 h2
  cases hh : t.alg.hs[i]? with
  | none => rw [hh] at h1; cases h1
  | some hd =>
    rw [hh] at h1 h2
    have e1 : hd.param = en.1 := by simpa using h1
    have e2 : hd.value = en.2 := by simpa using h2
    rw [← e1, ← e2]
    exact (hI.2.1 hd (List.mem_of_getElem? hh)).1

/-- The code does not give a number for a parameter with one value: with the limit of the jump on (the
default) the suggestion is the quotient of two zeros, for every admissible draw. -/
theorem C136_single_fails [IsStrictOrderedRing K] (name : String) (a : K) (ty : Ty) (strict : Bool) (barrier : K) (hb : 0 < barrier)
    (z : K) (zs : List K) : getNextValue ⟨⟨name, [a], a, ty⟩, a, ⟨strict, false, barrier⟩⟩ (z :: zs) = some .nan := by
  have hbd : bound strict a a a = 0 := by
    unfold bound
    cases strict <;> simp
  unfold getNextValue
  simp only [List.head?_cons, List.getLast?_singleton, hbd]
  simp [draw, limit, hb]

/-- The code never leaves an end of the range with the strict bound: the bound is 0 there, and whatever is
drawn the value in use is suggested again. -/
theorem C136_strict_fails [IsStrictOrderedRing K] (h : Handler K) (a b : K) (z : K) (zs : List K) (ha : h.param.values.head? = some a)
    (hb : h.param.values.getLast? = some b) (hab : a < b) (hs : h.cfg.strict = true) (hc : h.cfg.closest = false)
    (hend : h.value = a ∨ h.value = b) : getNextValue h (z :: zs) = some (.val h.value) := by
  have hbd : bound h.cfg.strict a b h.value = 0 := by
    unfold bound
    rw [hs]
    simp only [if_true]
    rcases hend with e | e
    · rw [e]
      have : ¬ b - a < a - a := by rw [sub_self]; intro h; linarith
      rw [if_neg this]; simp
    · rw [e]
      have : b - b < b - a := by rw [sub_self]; linarith
      rw [if_pos this]; simp
  have hin : a ≤ h.value ∧ h.value ≤ b := by
    rcases hend with e | e <;> rw [e]
    · exact ⟨le_refl _, hab.le⟩
    · exact ⟨hab.le, le_refl _⟩
  have hne : b - a ≠ 0 := by intro e; linarith
  unfold getNextValue
  simp only [ha, hb, hbd]
  simp only [draw, mul_zero, add_zero, if_pos hin, limit, hc]
  by_cases c : 0 < h.cfg.barrier
  · rw [if_pos c, if_neg hne]
    have : ¬ |(0 : K)| > h.cfg.barrier := by rw [abs_zero]; exact not_lt.2 c.le
    simp only [sub_self, if_neg this]
    have h2 : (h.value - a) / (b - a) * (b - a) + a = h.value := by field_simp; ring
    rw [h2]
    simp
  · rw [if_neg c]
    simp

end

def demoDrop : Param ℚ := ⟨"drop", [0, 2, 4], 1, .dflt⟩
def demoCfg : Param ℚ → Cfg ℚ := fun _ => ⟨false, false, 1/4⟩

theorem demo_hyp : ∀ e ∈ [(demoDrop, (1 : ℚ))], e.2 = e.1.dflt ∧ Within e.1 e.1.dflt ∧ Bounded e.1 := by
  intro e he
  have : e = (demoDrop, 1) := by simpa using he
  subst this
  refine ⟨rfl, ⟨0, 4, rfl, rfl, by decide +kernel, by decide +kernel⟩, ?_⟩
  intro x hx
  have : x = 0 ∨ x = 2 ∨ x = 4 := by simpa [demoDrop] using hx
  refine ⟨0, 4, rfl, rfl, ?_, ?_⟩ <;> rcases this with e | e | e <;> rw [e] <;> decide +kernel

/-- two uses: the jump by 2 is cut, then a draw leaves the range and the next one is used -/
example : (trials id annealing (new demoCfg (fun n => if n = 0 then [1/2] else [-3, 1/8]) (fun _ => false)
    ⟨[(demoDrop, 1)], 9⟩ 3) [((5 : ℚ), true), (7, true)]).map (fun x => (x.1.map (·.changed), getPoints id x.2.params)) =
    some ([[(0, 3/2)], [(0, 2)]], [⟨"drop", 3/2⟩]) := by decide +kernel

end Verif.Optim.Annealing
