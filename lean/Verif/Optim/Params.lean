import Mathlib.Algebra.Order.Field.Basic
import Mathlib.Algebra.Order.Archimedean.Basic
import Mathlib.Algebra.Order.Floor.Ring
import Mathlib.Data.Rat.Floor
import Mathlib.Tactic.Linarith
import Mathlib.Tactic.Ring
import Mathlib.Tactic.FieldSimp

/-!
Parameters of the optimizers: Source/Optimizer/optimizers.cpp, classes `OptimizationParameter`,
`OptimizationParameterPoint` and `OptimizationParameters`.

Not modelled: printing, copy and move constructors (they copy all fields).
-/

namespace Verif.Optim

/-- `OptimizationParameterType` (inmost_optimizer.h L20-23) -/
inductive Ty where
  | dflt | exponent
  deriving DecidableEq

/-- `OptimizationParameter` (inmost_optimizer.h L69-74) -/
structure Param (K : Type) where
  name : String
  values : List K
  dflt : K
  ty : Ty
  deriving DecidableEq

/-- `OptimizationParameterPoint` (inmost_optimizer.h L28-31) -/
structure Point (K : Type) where
  name : String
  value : K
  deriving DecidableEq

/-- `OptimizationParameters` (inmost_optimizer.h L203-206): parameters with their current values, and
the metrics of the current values -/
structure Params (K : Type) where
  entries : List (Param K × K)
  metrics : K
  deriving DecidableEq

/-- `OptimizationParameterPoint::convert` (optimizers.cpp L149-158); `pow10` is `std::pow(10, ·)` -/
def convert {K : Type} (pow10 : K → K) : Ty → K → K
  | .dflt, v => v
  | .exponent, v => pow10 v

/-- constructor of a point (optimizers.cpp L141-142) -/
def point {K : Type} (pow10 : K → K) (p : Param K) (v : K) : Point K := ⟨p.name, convert pow10 p.ty v⟩

/-- `OptimizationParameters::GetPoints` (optimizers.cpp L267-276) -/
def getPoints {K : Type} (pow10 : K → K) (s : Params K) : List (Point K) :=
  s.entries.map fun e => point pow10 e.1 e.2

/-- loop of `GetPointsWithChangedParameters` (optimizers.cpp L300-314): `index` counts the entries, the
first change with that index is used -/
def changedLoop {K : Type} (pow10 : K → K) (ch : List (Nat × K)) : Nat → List (Param K × K) → List (Point K)
  | _, [] => []
  | index, e :: r =>
    (match ch.find? (fun c => index == c.1) with
      | none => point pow10 e.1 e.2
      | some c => point pow10 e.1 c.2) :: changedLoop pow10 ch (index + 1) r

/-- `OptimizationParameters::GetPointsWithChangedParameters` (optimizers.cpp L296-317) -/
def withChanged {K : Type} (pow10 : K → K) (s : Params K) (ch : List (Nat × K)) : List (Point K) :=
  changedLoop pow10 ch 0 s.entries

/-- `this->entries[index].second = value` (optimizers.cpp L321, L328); `none`: index past the end -/
def setEntry {K : Type} (es : List (Param K × K)) (index : Nat) (v : K) : Option (List (Param K × K)) :=
  match es[index]? with
  | none => none
  | some e => some (es.set index (e.1, v))

/-- loop of `OptimizationParameters::Update` (optimizers.cpp L320-322) -/
def setEntries {K : Type} : List (Param K × K) → List (Nat × K) → Option (List (Param K × K))
  | es, [] => some es
  | es, c :: r =>
    match setEntry es c.1 c.2 with
    | none => none
    | some es' => setEntries es' r

/-- `OptimizationParameters::Update(changed, metrics)` (optimizers.cpp L319-325) -/
def update {K : Type} (s : Params K) (ch : List (Nat × K)) (metrics : K) : Option (Params K) :=
  match setEntries s.entries ch with
  | none => none
  | some es => some ⟨es, metrics⟩

/-- `OptimizationParameters::Update(index, value, metrics)` (optimizers.cpp L327-330) -/
def update1 {K : Type} (s : Params K) (index : Nat) (v metrics : K) : Option (Params K) :=
  match setEntry s.entries index v with
  | none => none
  | some es => some ⟨es, metrics⟩

/-- loop of the constructor with a range (optimizers.cpp L29-34): `slots` are the elements of `values`
not written yet; `none`: a write past the end of the vector -/
def fill (hi step : ℚ) : Nat → ℚ → Option (List ℚ)
  | 0, v => if v < hi then none else some []
  | slots + 1, v =>
    if v < hi then
      match fill hi step slots (v + step) with
      | none => none
      | some r => some (v :: r)
    else some (List.replicate (slots + 1) 0)

/-- values given by the constructor with a range (optimizers.cpp L26-35). Simplified: exact arithmetic.
`none`: undefined behaviour, either of the conversion of a negative or infinite number to
`unsigned long` or of a write past the end of the vector. -/
def rangeValues (lo hi step : ℚ) : Option (List ℚ) :=
  if step = 0 ∨ (hi - lo) / step ≤ -1 then none
  else fill hi step ⌊(hi - lo) / step⌋.toNat lo

/-- `std::min_element` with the comparison `|x - to| < |y - to|`, as an index relative to the start:
`best` is the position of the smallest element so far, `i` the position of the next element -/
def minLoop {K : Type} (lt : K → K → Bool) : List K → Nat → Nat → K → Nat
  | [], _, best, _ => best
  | y :: r, i, best, b => if lt y b then minLoop lt r (i + 1) i y else minLoop lt r (i + 1) best b

/-- `std::min_element(first, last, lt) - first` -/
def minElement {K : Type} (lt : K → K → Bool) : List K → Nat
  | [] => 0
  | x :: r => minLoop lt r 1 0 x

variable {K : Type} [Field K] [LinearOrder K] [IsStrictOrderedRing K]

/-- `OptimizationParameter::GetClosestIndexTo` (optimizers.cpp L112-116) -/
def closestIndexTo (values : List K) (tgt : K) : Nat :=
  minElement (fun x y => decide (|x - tgt| < |y - tgt|)) values

/-- `OptimizationParameter::GetClosestTo` (optimizers.cpp L106-110); `none`: the end of the vector is
dereferenced -/
def closestTo (values : List K) (tgt : K) : Option K := values[closestIndexTo values tgt]?

/-! ### helpers -/

omit [Field K] [LinearOrder K] [IsStrictOrderedRing K] in
theorem setEntry_some {es es' : List (Param K × K)} {i : Nat} {v : K} (h : setEntry es i v = some es') :
    ∃ e, es[i]? = some e ∧ es' = es.set i (e.1, v) := by
  unfold setEntry at h
  cases hx : es[i]? with
  | none => simp only [hx] at h; cases h
  | some e => simp only [hx] at h; exact ⟨e, rfl, (Option.some.inj h).symm⟩

omit [Field K] [LinearOrder K] [IsStrictOrderedRing K] in
theorem changedLoop_get (pow10 : K → K) (ch : List (Nat × K)) : ∀ (es : List (Param K × K)) (n i : Nat),
    (changedLoop pow10 ch n es)[i]? = (es[i]?).map (fun e =>
      match ch.find? (fun c => (n + i) == c.1) with
      | none => point pow10 e.1 e.2
      | some c => point pow10 e.1 c.2) := by
  intro es
  induction es with
  | nil => intro n i; simp [changedLoop]
  | cons e r ih =>
    intro n i
    cases i with
    | zero => simp [changedLoop]
    | succ i =>
      simp only [changedLoop, List.getElem?_cons_succ, ih]
      have : n + 1 + i = n + (i + 1) := by omega
      rw [this]

omit [Field K] [LinearOrder K] [IsStrictOrderedRing K] in
theorem setEntries_get : ∀ (ch : List (Nat × K)) (es es' : List (Param K × K)),
    setEntries es ch = some es' → (ch.map (·.1)).Nodup → ∀ i,
    es'[i]? = (es[i]?).map (fun e =>
      match ch.find? (fun c => i == c.1) with
      | none => e
      | some c => (e.1, c.2)) := by
  intro ch
  induction ch with
  | nil =>
    intro es es' h _ i
    simp only [setEntries, Option.some.injEq] at h
    subst h
    simp
  | cons c r ih =>
    intro es es' h nd i
    simp only [setEntries] at h
    cases hs : setEntry es c.1 c.2 with
    | none => simp only [hs] at h; cases h
    | some em =>
      simp only [hs] at h
      obtain ⟨e, he, hem⟩ := setEntry_some hs
      have nd2 : (c.1 ∉ r.map (·.1)) ∧ (r.map (·.1)).Nodup := by simpa using nd
      rw [ih em es' h nd2.2 i, hem]
      by_cases hi : i = c.1
      · have hn : r.find? (fun c => i == c.1) = none := by
          rw [List.find?_eq_none]
          intro x hx hc
          have : i = x.1 := by simpa using hc
          exact nd2.1 (by rw [← hi, this]; exact List.mem_map_of_mem hx)
        have hlt : c.1 < es.length := by
          rw [List.getElem?_eq_some_iff] at he; exact he.1
        rw [hn]
        rw [hi, List.getElem?_set_self hlt, he]
        simp
      · have : (i == c.1) = false := by simpa using hi
        rw [List.getElem?_set_ne (Ne.symm hi), List.find?_cons_of_neg (by simpa using hi)]

theorem fill_exact (lo step : ℚ) (hs : 0 < step) : ∀ (m : Nat) (v hi : ℚ), hi = v + m * step →
    fill hi step m v = some ((List.range m).map fun i : Nat => v + i * step) := by
  intro m
  induction m with
  | zero =>
    intro v hi h
    have : ¬ v < hi := by rw [h]; push_cast; linarith
    simp [fill, this]
  | succ m ih =>
    intro v hi h
    have hlt : v < hi := by
      rw [h]; push_cast
      have : (0 : ℚ) ≤ m := Nat.cast_nonneg m
      nlinarith
    have := ih (v + step) hi (by rw [h]; push_cast; ring)
    simp only [fill, hlt, if_true, this, List.range_succ_eq_map, List.map_cons, List.map_map]
    congr 1
    have h0 : v + ((0 : Nat) : ℚ) * step = v := by push_cast; ring
    rw [h0]
    congr 1
    apply List.map_congr_left
    intro a _
    simp only [Function.comp]
    push_cast
    ring

theorem fill_over (step : ℚ) (hs : 0 < step) : ∀ (m : Nat) (v hi : ℚ), v + m * step < hi →
    fill hi step m v = none := by
  intro m
  induction m with
  | zero =>
    intro v hi h
    have : v < hi := by push_cast at h; linarith
    simp [fill, this]
  | succ m ih =>
    intro v hi h
    have hm : (0 : ℚ) ≤ m := Nat.cast_nonneg m
    push_cast at h
    have hlt : v < hi := by nlinarith
    have := ih (v + step) hi (by linarith)
    simp [fill, hlt, this]

omit [Field K] [LinearOrder K] [IsStrictOrderedRing K] in
theorem minLoop_spec (d : K → K → Bool) (key : K → K → Prop)
    (hd : ∀ x y, d x y = true ↔ ¬ key y x) (refl : ∀ x, key x x) (trans : ∀ x y z, key x y → key y z → key x z)
    (total : ∀ x y, key x y ∨ key y x) :
    ∀ (l pre : List K) (best : Nat) (b : K), pre[best]? = some b → (∀ x ∈ pre, key b x) →
    ∃ v, (pre ++ l)[minLoop d l pre.length best b]? = some v ∧ ∀ x ∈ pre ++ l, key v x := by
  intro l
  induction l with
  | nil => intro pre best b hb hm; exact ⟨b, by simpa [minLoop] using hb, by simpa using hm⟩
  | cons y r ih =>
    intro pre best b hb hm
    have hlen : (pre ++ [y]).length = pre.length + 1 := by simp
    by_cases c : d y b = true
    · simp only [minLoop, c, if_true]
      have hk : ¬ key b y := (hd y b).1 c
      have hyb : key y b := (total y b).resolve_right hk
      have := ih (pre ++ [y]) pre.length y (by simp) (by
        intro x hx
        rcases List.mem_append.1 hx with h | h
        · exact trans _ _ _ hyb (hm x h)
        · have : x = y := by simpa using h
          rw [this]; exact refl y)
      rw [hlen] at this
      simpa using this
    · simp only [minLoop, c]
      have hk : key b y := by
        by_contra hn
        exact c ((hd y b).2 hn)
      have := ih (pre ++ [y]) best b (by
          rw [List.getElem?_append_left]
          · exact hb
          · rw [List.getElem?_eq_some_iff] at hb; exact hb.1) (by
        intro x hx
        rcases List.mem_append.1 hx with h | h
        · exact hm x h
        · have : x = y := by simpa using h
          rw [this]; exact hk)
      rw [hlen] at this
      simpa using this

/-! ### C133 -/

omit [Field K] [LinearOrder K] [IsStrictOrderedRing K] in
/-- Accepting changes makes the current points those announced for these changes, if no parameter is
changed twice; the metrics becomes the given one. -/
theorem C133_announced_partial (pow10 : K → K) (s s' : Params K) (ch : List (Nat × K)) (m : K)
    (h : update s ch m = some s') (nd : (ch.map (·.1)).Nodup) :
    getPoints pow10 s' = withChanged pow10 s ch ∧ s'.metrics = m := by
  unfold update at h
  cases hs : setEntries s.entries ch with
  | none => simp only [hs] at h; cases h
  | some es =>
    simp only [hs, Option.some.injEq] at h
    subst h
    refine ⟨?_, rfl⟩
    apply List.ext_getElem?
    intro i
    unfold getPoints withChanged
    rw [List.getElem?_map, setEntries_get ch _ _ hs nd i, changedLoop_get, Nat.zero_add]
    cases s.entries[i]? with
    | none => rfl
    | some e =>
      simp only [Option.map_some]
      cases ch.find? (fun c => i == c.1) <;> rfl

def demoTau : Param ℚ := ⟨"tau", [1, 2, 3], 2, .dflt⟩
def demoEps : Param ℚ := ⟨"eps", [-3, -2], -3, .exponent⟩
def demoParams : Params ℚ := ⟨[(demoTau, 2), (demoEps, -3)], -1⟩

example : update demoParams [(1, -2), (0, 3)] 7 = some ⟨[(demoTau, 3), (demoEps, -2)], 7⟩ ∧
    getPoints (fun v => v * 10) ⟨[(demoTau, 3), (demoEps, -2)], 7⟩ = [⟨"tau", 3⟩, ⟨"eps", -20⟩] := by
  decide +kernel

/-- The code does not keep this for a list that changes a parameter twice: the first change is
announced, the last one is used. -/
theorem C133_announced_fails : ∃ (s s' : Params ℚ) (ch : List (Nat × ℚ)) (m : ℚ),
    update s ch m = some s' ∧ getPoints id s' ≠ withChanged id s ch := by
  exact ⟨demoParams, ⟨[(demoTau, 3), (demoEps, -3)], 7⟩, [(0, 1), (0, 3)], 7, by decide +kernel⟩

/-- A range whose length is a whole number of steps gives exactly `lo`, `lo + step`, … -/
theorem C133_range_partial (lo step : ℚ) (n : Nat) (hs : 0 < step) :
    rangeValues lo (lo + n * step) step = some ((List.range n).map fun i : Nat => lo + i * step) := by
  have hq : (lo + n * step - lo) / step = n := by field_simp; ring
  unfold rangeValues
  rw [hq]
  have hn : (0 : ℚ) ≤ n := Nat.cast_nonneg n
  rw [if_neg (by rintro (h | h) <;> linarith)]
  have : ⌊(n : ℚ)⌋.toNat = n := by rw [Int.floor_natCast]; simp
  rw [this]
  exact fill_exact lo step hs n lo _ rfl

example : rangeValues 0 1 (1/4) = some [0, 1/4, 1/2, 3/4] := by decide +kernel

/-- The code does not keep this otherwise: for every non-empty range whose length is not a whole number
of steps the constructor writes past the end of its vector. -/
theorem C133_range_fails (lo hi step : ℚ) (hs : 0 < step) (hl : lo < hi)
    (hn : ∀ n : Nat, hi ≠ lo + n * step) : rangeValues lo hi step = none := by
  unfold rangeValues
  by_cases c : step = 0 ∨ (hi - lo) / step ≤ -1
  · rw [if_pos c]
  · rw [if_neg c]
    apply fill_over step hs
    have hpos : 0 < (hi - lo) / step := div_pos (by linarith) hs
    have hf : (0 : ℤ) ≤ ⌊(hi - lo) / step⌋ := Int.floor_nonneg.2 hpos.le
    have hle : ((⌊(hi - lo) / step⌋.toNat : Nat) : ℚ) ≤ (hi - lo) / step := by
      have h1 : ((⌊(hi - lo) / step⌋.toNat : ℤ) : ℚ) = (⌊(hi - lo) / step⌋ : ℚ) := by
        rw [Int.toNat_of_nonneg hf]
      have h2 := Int.floor_le ((hi - lo) / step)
      have h3 : ((⌊(hi - lo) / step⌋.toNat : Nat) : ℚ) = ((⌊(hi - lo) / step⌋.toNat : ℤ) : ℚ) := by
        rw [Int.cast_natCast]
      rw [h3, h1]; exact h2
    rw [le_div_iff₀ hs] at hle
    have hne := hn ⌊(hi - lo) / step⌋.toNat
    rcases lt_or_eq_of_le hle with h | h
    · linarith
    · exact absurd (by linarith) hne

example : rangeValues 0 1 (3/10) = none :=
  C133_range_fails 0 1 (3/10) (by norm_num) (by norm_num) (by
    intro n h
    have h2 : (3 * n : ℚ) = 10 := by linarith
    have h3 : 3 * n = 10 := by exact_mod_cast h2
    omega)

omit [IsStrictOrderedRing K] in
/-- The closest value is one of the listed values and no listed value is closer. -/
theorem C133_closest (values : List K) (tgt : K) (hne : values ≠ []) :
    ∃ v, closestTo values tgt = some v ∧ v ∈ values ∧ ∀ x ∈ values, |v - tgt| ≤ |x - tgt| := by
  cases values with
  | nil => exact absurd rfl hne
  | cons x r =>
    have := minLoop_spec (fun x y => decide (|x - tgt| < |y - tgt|)) (fun x y : K => |x - tgt| ≤ |y - tgt|)
      (by intro x y; simp) (fun x => le_refl _) (fun x y z => le_trans) (fun x y => le_total _ _)
      r [x] 0 x rfl (by intro y hy; have : y = x := by simpa using hy
                        rw [this])
    obtain ⟨v, h1, h2⟩ := this
    refine ⟨v, ?_, ?_, h2⟩
    · simpa [closestTo, closestIndexTo, minElement] using h1
    · have := List.mem_of_getElem? h1
      simpa using this

example : closestTo [(1 : ℚ), 4, 9] 6 = some 4 := by decide +kernel

end Verif.Optim
