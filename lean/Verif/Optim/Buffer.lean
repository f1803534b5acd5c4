import Verif.Optim.Params

/-!
Buffer of the last results of an optimizer: Source/Optimizer/optimizers.cpp, class
`OptimizationParameterResultsBuffer`.
-/

namespace Verif.Optim

/-- `OptimizationParameterResult` (inmost_optimizer.h L258-265) -/
structure Result (K : Type) where
  changed : List (Nat × K)
  before : List (Point K)
  mBefore : K
  after : List (Point K)
  mAfter : K
  good : Bool
  deriving DecidableEq

/-- `OptimizationParameterResultsBuffer::push` (optimizers.cpp L418-423), oldest result first; `none`:
`pop_front` of an empty deque -/
def push {R : Type} (capacity : Nat) (buffer : List R) (r : R) : Option (List R) :=
  if buffer.length = capacity then
    match buffer with
    | [] => none
    | _ :: t => some (t ++ [r])
  else some (buffer ++ [r])

/-- the results in the order of `cbegin` … `cend`, newest first (optimizers.cpp L406-408, L414-416) -/
def newestFirst {R : Type} (buffer : List R) : List R := buffer.reverse

/-- `at` (optimizers.cpp L410-412); `none`: past the end -/
def atIndex {R : Type} (buffer : List R) (i : Nat) : Option R := (newestFirst buffer)[i]?

/-- `IsLastResultSuccessful` (optimizers.cpp L433-435) -/
def isLastResultSuccessful {K : Type} (buffer : List (Result K)) : Bool :=
  match newestFirst buffer with
  | [] => false
  | r :: _ => r.good

/-- `IsSuccessfulResultExist` (optimizers.cpp L437-441) -/
def isSuccessfulResultExist {K : Type} (buffer : List (Result K)) : Bool :=
  ((newestFirst buffer).find? (fun r => r.good)).isSome

/-- `GetLastSuccessfulResult` (optimizers.cpp L443-447); `none`: the end is dereferenced -/
def getLastSuccessfulResult {K : Type} (buffer : List (Result K)) : Option (Result K) :=
  (newestFirst buffer).find? (fun r => r.good)

section
variable {K : Type} [Field K] [LinearOrder K]

/-- comparison of two lists of points (optimizers.cpp L457-465): `r` is the new result, `u` the one in
the list; `none`: `at` throws because `u` has fewer points -/
def samePoints (eps : K) : List (Point K) → List (Point K) → Option Bool
  | [], _ => some true
  | _ :: _, [] => none
  | a :: r, b :: u => if |a.value - b.value| > eps then some false else samePoints eps r u

/-- `std::find_if(unique.cbegin(), unique.cend(), …) != unique.cend()` (optimizers.cpp L456-466) -/
def findSame (eps : K) (r : Result K) : List (Result K) → Option Bool
  | [] => some false
  | u :: us =>
    match samePoints eps r.after u.after with
    | none => none
    | some true => some true
    | some false => findSame eps r us

/-- loop of `GetLastUniqueEntries` (optimizers.cpp L452-474) -/
def uniqueLoop (eps : K) (max : Nat) : List (Result K) → List (Result K) → Option (List (Result K))
  | [], unique => some unique
  | r :: rest, unique =>
    if unique.length ≤ max then
      match findSame eps r unique with
      | none => none
      | some true => uniqueLoop eps max rest unique
      | some false => uniqueLoop eps max rest (unique ++ [r])
    else uniqueLoop eps max rest unique

/-- `GetLastUniqueEntries` (optimizers.cpp L449-477); `eps` is 1e-8 -/
def getLastUniqueEntries (eps : K) (buffer : List (Result K)) (max : Nat) : Option (List (Result K)) :=
  uniqueLoop eps max (newestFirst buffer) []

end

/-- a history of `push` on a new buffer (optimizers.cpp L391) -/
def pushes {R : Type} (capacity : Nat) : List R → List R → Option (List R)
  | buffer, [] => some buffer
  | buffer, r :: rest =>
    match push capacity buffer r with
    | none => none
    | some b => pushes capacity b rest

/-! ### specification -/

/-- two lists of values that nowhere differ by more than `eps` -/
def Close {K : Type} [Field K] [LinearOrder K] (eps : K) (a b : Result K) : Prop :=
  ∀ (i : Nat) (x y : Point K), a.after[i]? = some x → b.after[i]? = some y → |x.value - y.value| ≤ eps

/-! ### helpers -/

theorem push_spec {R : Type} (capacity : Nat) (hc : 0 < capacity) (all buffer : List R) (r : R)
    (h : buffer.reverse = all.reverse.take capacity) :
    ∃ b, push capacity buffer r = some b ∧ b.reverse = (all ++ [r]).reverse.take capacity := by
  unfold push
  have hrev : (all ++ [r]).reverse.take capacity = r :: all.reverse.take (capacity - 1) := by
    obtain ⟨c, rfl⟩ : ∃ c, capacity = c + 1 := ⟨capacity - 1, by omega⟩
    simp
  have hlen : buffer.length = min capacity all.length := by
    have := congrArg List.length h
    simpa using this
  by_cases e : buffer.length = capacity
  · rw [if_pos e]
    cases buffer with
    | nil => simp at e; omega
    | cons x t =>
      refine ⟨t ++ [r], rfl, ?_⟩
      rw [hrev]
      simp only [List.reverse_append, List.reverse_cons, List.reverse_nil, List.nil_append,
        List.cons_append, List.cons.injEq, true_and]
      have h2 : (t.reverse ++ [x]).take (capacity - 1) = (all.reverse.take capacity).take (capacity - 1) := by
        rw [← h]; simp
      rw [List.take_take, Nat.min_eq_left (by omega)] at h2
      rw [← h2]
      have : t.reverse.length = capacity - 1 := by simp at e ⊢; omega
      rw [← this, List.take_left]
  · rw [if_neg e]
    refine ⟨buffer ++ [r], rfl, ?_⟩
    rw [hrev]
    simp only [List.reverse_append, List.reverse_cons, List.reverse_nil, List.nil_append,
        List.cons_append, List.cons.injEq, true_and]
    rw [h, List.take_of_length_le (by simp; omega), List.take_of_length_le (by simp; omega)]

theorem pushes_spec {R : Type} (capacity : Nat) (hc : 0 < capacity) : ∀ (rs all buffer : List R),
    buffer.reverse = all.reverse.take capacity →
    ∃ b, pushes capacity buffer rs = some b ∧ b.reverse = (all ++ rs).reverse.take capacity := by
  intro rs
  induction rs with
  | nil => intro all buffer h; exact ⟨buffer, rfl, by simpa using h⟩
  | cons r rest ih =>
    intro all buffer h
    obtain ⟨b, h1, h2⟩ := push_spec capacity hc all buffer r h
    obtain ⟨b', h3, h4⟩ := ih (all ++ [r]) b h2
    exact ⟨b', by simp only [pushes, h1]; exact h3, by simpa using h4⟩

section
variable {K : Type} [Field K] [LinearOrder K]

theorem samePoints_true (eps : K) : ∀ (r u : List (Point K)), samePoints eps r u = some true →
    ∀ (i : Nat) (x y : Point K), r[i]? = some x → u[i]? = some y → |x.value - y.value| ≤ eps := by
  intro r
  induction r with
  | nil => intro u _ i x y h; simp at h
  | cons a r ih =>
    intro u h i x y hx hy
    cases u with
    | nil => simp [samePoints] at h
    | cons b u =>
      simp only [samePoints] at h
      by_cases c : |a.value - b.value| > eps
      · rw [if_pos c] at h; cases h
      · rw [if_neg c] at h
        cases i with
        | zero =>
          simp only [List.getElem?_cons_zero, Option.some.injEq] at hx hy
          subst hx; subst hy
          exact not_lt.1 c
        | succ i => exact ih u h i x y (by simpa using hx) (by simpa using hy)

theorem samePoints_false (eps : K) : ∀ (r u : List (Point K)), samePoints eps r u = some false →
    ∃ (i : Nat) (x y : Point K), r[i]? = some x ∧ u[i]? = some y ∧ eps < |x.value - y.value| := by
  intro r
  induction r with
  | nil => intro u h; simp [samePoints] at h
  | cons a r ih =>
    intro u h
    cases u with
    | nil => simp [samePoints] at h
    | cons b u =>
      simp only [samePoints] at h
      by_cases c : |a.value - b.value| > eps
      · exact ⟨0, a, b, rfl, rfl, c⟩
      · rw [if_neg c] at h
        obtain ⟨i, x, y, h1, h2, h3⟩ := ih u h
        exact ⟨i + 1, x, y, by simpa using h1, by simpa using h2, h3⟩

theorem samePoints_total (eps : K) : ∀ (r u : List (Point K)), r.length ≤ u.length → samePoints eps r u ≠ none := by
  intro r
  induction r with
  | nil => intro u _ h; simp [samePoints] at h
  | cons a r ih =>
    intro u h
    cases u with
    | nil => simp at h
    | cons b u =>
      simp only [samePoints]
      by_cases c : |a.value - b.value| > eps
      · rw [if_pos c]; simp
      · rw [if_neg c]; exact ih u (by simpa using h)

theorem findSame_true (eps : K) (r : Result K) : ∀ us, findSame eps r us = some true →
    ∃ u ∈ us, Close eps r u := by
  intro us
  induction us with
  | nil => intro h; simp [findSame] at h
  | cons u us ih =>
    intro h
    simp only [findSame] at h
    cases hs : samePoints eps r.after u.after with
    | none => simp only [hs] at h; cases h
    | some b =>
      cases b with
      | true => exact ⟨u, by simp, fun i x y hx hy => samePoints_true eps _ _ hs i x y hx hy⟩
      | false =>
        simp only [hs] at h
        obtain ⟨v, hv, hc⟩ := ih h
        exact ⟨v, by simp [hv], hc⟩

theorem findSame_false (eps : K) (r : Result K) : ∀ us, findSame eps r us = some false →
    ∀ u ∈ us, ¬ Close eps r u := by
  intro us
  induction us with
  | nil => intro _ u hu; simp at hu
  | cons v us ih =>
    intro h u hu hc
    simp only [findSame] at h
    cases hs : samePoints eps r.after v.after with
    | none => simp only [hs] at h; cases h
    | some b =>
      cases b with
      | true => simp only [hs] at h; cases h
      | false =>
        simp only [hs] at h
        rcases List.mem_cons.1 hu with e | e
        · subst e
          obtain ⟨i, x, y, h1, h2, h3⟩ := samePoints_false eps _ _ hs
          exact absurd (hc i x y h1 h2) (not_le.2 h3)
        · exact ih h u e hc

theorem findSame_total (eps : K) (n : Nat) (r : Result K) (hr : r.after.length = n) : ∀ us : List (Result K),
    (∀ u ∈ us, u.after.length = n) → findSame eps r us ≠ none := by
  intro us
  induction us with
  | nil => intro _ h; simp [findSame] at h
  | cons u us ih =>
    intro hu
    simp only [findSame]
    have hl := hu u (by simp)
    cases hs : samePoints eps r.after u.after with
    | none => exact absurd hs (samePoints_total eps _ _ (by omega))
    | some b => cases b with
      | true => simp
      | false => exact ih (fun v hv => hu v (by simp [hv]))

theorem uniqueLoop_spec [IsStrictOrderedRing K] (eps : K) (he : 0 ≤ eps) (max : Nat) : ∀ (rest pre unique out : List (Result K)),
    uniqueLoop eps max rest unique = some out →
    unique.Sublist pre → unique.length ≤ max + 1 → unique.Pairwise (fun a b => ¬ Close eps b a) →
    (unique.length ≤ max → ∀ r ∈ pre, ∃ u ∈ unique, Close eps r u) →
    out.Sublist (pre ++ rest) ∧ out.length ≤ max + 1 ∧ out.Pairwise (fun a b => ¬ Close eps b a) ∧
    (out.length ≤ max → ∀ r ∈ pre ++ rest, ∃ u ∈ out, Close eps r u) := by
  intro rest
  induction rest with
  | nil =>
    intro pre unique out h h1 h2 h3 h4
    simp only [uniqueLoop, Option.some.injEq] at h
    subst h
    simpa using ⟨h1, h2, h3, h4⟩
  | cons r rest ih =>
    intro pre unique out h h1 h2 h3 h4
    simp only [uniqueLoop] at h
    have happ : pre ++ r :: rest = (pre ++ [r]) ++ rest := by simp
    rw [happ]
    have hsub : unique.Sublist (pre ++ [r]) := h1.trans (List.sublist_append_left _ _)
    by_cases c : unique.length ≤ max
    · rw [if_pos c] at h
      cases hf : findSame eps r unique with
      | none => simp only [hf] at h; cases h
      | some b =>
        cases b with
        | true =>
          simp only [hf] at h
          refine ih (pre ++ [r]) unique out h hsub h2 h3 ?_
          intro _ x hx
          rcases List.mem_append.1 hx with e | e
          · exact h4 c x e
          · have : x = r := by simpa using e
            rw [this]; exact findSame_true eps r unique hf
        | false =>
          simp only [hf] at h
          have hn := findSame_false eps r unique hf
          refine ih (pre ++ [r]) (unique ++ [r]) out h (h1.append (List.Sublist.refl _)) (by simp; omega) ?_ ?_
          · rw [List.pairwise_append]
            refine ⟨h3, by simp, ?_⟩
            intro a ha b hb
            have : b = r := by simpa using hb
            rw [this]; exact hn a ha
          · intro _ x hx
            rcases List.mem_append.1 hx with e | e
            · obtain ⟨u, hu, hc⟩ := h4 c x e
              exact ⟨u, by simp [hu], hc⟩
            · have hxr : x = r := by simpa using e
              refine ⟨r, by simp, ?_⟩
              rw [hxr]
              intro i p q hp hq
              rw [hp] at hq
              cases hq
              simpa using he
    · rw [if_neg c] at h
      exact ih (pre ++ [r]) unique out h hsub h2 h3 (fun hc => absurd hc c)

theorem uniqueLoop_total (eps : K) (max n : Nat) : ∀ (rest unique : List (Result K)),
    (∀ r ∈ rest, r.after.length = n) → (∀ r ∈ unique, r.after.length = n) → uniqueLoop eps max rest unique ≠ none := by
  intro rest
  induction rest with
  | nil => intro unique _ _ h; simp [uniqueLoop] at h
  | cons r rest ih =>
    intro unique h1 h2
    simp only [uniqueLoop]
    have hrest : ∀ x ∈ rest, x.after.length = n := fun x hx => h1 x (by simp [hx])
    by_cases c : unique.length ≤ max
    · rw [if_pos c]
      cases hf : findSame eps r unique with
      | none => exact absurd hf (findSame_total eps n r (h1 r (by simp)) unique h2)
      | some b =>
        cases b with
        | true => exact ih unique hrest h2
        | false =>
          refine ih (unique ++ [r]) hrest ?_
          intro x hx
          rcases List.mem_append.1 hx with e | e
          · exact h2 x e
          · have : x = r := by simpa using e
            rw [this]; exact h1 r (by simp)
    · rw [if_neg c]; exact ih unique hrest h2

end

/-! ### C132 -/

/-- After any number of results the buffer shows the last `capacity` of them, newest first. -/
theorem C132_last {R : Type} (capacity : Nat) (hc : 0 < capacity) (rs : List R) :
    ∃ b, pushes capacity [] rs = some b ∧ newestFirst b = rs.reverse.take capacity ∧
      b.length = min capacity rs.length ∧
      ∀ i, atIndex b i = if i < capacity then rs.reverse[i]? else none := by
  obtain ⟨b, h1, h2⟩ := pushes_spec capacity hc rs [] [] (by simp)
  simp only [List.nil_append] at h2
  refine ⟨b, h1, h2, ?_, ?_⟩
  · have := congrArg List.length h2
    simpa using this
  · intro i
    unfold atIndex newestFirst
    rw [h2]
    by_cases c : i < capacity
    · rw [if_pos c, List.getElem?_take_of_lt c]
    · rw [if_neg c, List.getElem?_eq_none (by simp; omega)]

example : pushes 3 [] [1, 2, 3, 4, 5] = some [3, 4, 5] ∧ newestFirst [3, 4, 5] = [5, 4, 3] := by decide

/-- The code does not keep this for capacity 0: the first result removes an element of an empty deque. -/
theorem C132_empty_fails {R : Type} (r : R) (rs : List R) : pushes 0 [] (r :: rs) = none := rfl

/-- The last successful result is the newest good one among the last `capacity` results, and the answer
whether there is one agrees. -/
theorem C132_successful {K : Type} (capacity : Nat) (hc : 0 < capacity) (rs b : List (Result K))
    (h : pushes capacity [] rs = some b) :
    (isSuccessfulResultExist b = true ↔ ∃ r ∈ rs.reverse.take capacity, r.good = true) ∧
    (∀ r, getLastSuccessfulResult b = some r ↔
      ∃ i, i < capacity ∧ rs.reverse[i]? = some r ∧ r.good = true ∧
        ∀ j, j < i → ∀ r', rs.reverse[j]? = some r' → r'.good = false) ∧
    (isLastResultSuccessful b = true ↔ ∃ r, rs.getLast? = some r ∧ r.good = true) := by
  obtain ⟨b', h1, h2, -, -⟩ := C132_last capacity hc rs
  rw [h] at h1
  cases h1
  refine ⟨?_, ?_, ?_⟩
  · unfold isSuccessfulResultExist
    rw [h2, List.find?_isSome]
  · intro r
    unfold getLastSuccessfulResult
    rw [h2, List.find?_eq_some_iff_getElem]
    constructor
    · rintro ⟨hg, i, hi, he, hj⟩
      have hi2 : i < capacity := by
        have := hi; simp at this; omega
      refine ⟨i, hi2, ?_, hg, ?_⟩
      · rw [← he, List.getElem_take]
        rw [List.getElem?_eq_getElem]
      · intro j hji r' hr'
        have := hj j hji
        rw [List.getElem_take] at this
        rw [List.getElem?_eq_some_iff] at hr'
        obtain ⟨hl, he'⟩ := hr'
        rw [he'] at this
        simpa using this
    · rintro ⟨i, hi, he, hg, hj⟩
      have hl : i < rs.reverse.length := by
        rw [List.getElem?_eq_some_iff] at he; exact he.1
      refine ⟨hg, i, by simp at hl ⊢; omega, ?_, ?_⟩
      · rw [List.getElem_take]
        rw [List.getElem?_eq_some_iff] at he
        exact he.2
      · intro j hji
        rw [List.getElem_take]
        have := hj j hji (rs.reverse[j]'(by omega)) (by rw [List.getElem?_eq_getElem])
        rw [this]; decide
  · unfold isLastResultSuccessful
    rw [h2, ← List.head?_reverse]
    obtain ⟨c, rfl⟩ : ∃ c, capacity = c + 1 := ⟨capacity - 1, by omega⟩
    cases rs.reverse with
    | nil => simp
    | cons x t => simp

def demoRes (v : ℚ) (g : Bool) : Result ℚ := ⟨[(0, v)], [⟨"tau", 0⟩], 5, [⟨"tau", v⟩], v, g⟩

example : (pushes 2 [] [demoRes 1 true, demoRes 2 true, demoRes 3 false]).bind getLastSuccessfulResult
    = some (demoRes 2 true) := by decide +kernel

/-- The unique entries of a buffer whose results have equally many points: taken from the buffer in its
order, pairwise different, at most `max + 1`; and if the limit is not reached every result of the
buffer is close to one of them. -/
theorem C132_unique_partial {K : Type} [Field K] [LinearOrder K] [IsStrictOrderedRing K] (eps : K) (he : 0 ≤ eps)
    (b : List (Result K)) (n max : Nat) (hn : ∀ r ∈ b, r.after.length = n) :
    ∃ out, getLastUniqueEntries eps b max = some out ∧ out.Sublist (newestFirst b) ∧
      out.length ≤ max + 1 ∧ out.Pairwise (fun a c => ¬ Close eps c a) ∧
      (out.length ≤ max → ∀ r ∈ b, ∃ u ∈ out, Close eps r u) := by
  unfold getLastUniqueEntries
  cases hu : uniqueLoop eps max (newestFirst b) [] with
  | none => exact absurd hu (uniqueLoop_total eps max n _ _ (by simpa [newestFirst] using hn) (by simp))
  | some out =>
    have := uniqueLoop_spec eps he max (newestFirst b) [] [] out hu (List.Sublist.refl _) (by simp) (by simp)
      (by simp)
    refine ⟨out, rfl, by simpa using this.1, this.2.1, this.2.2.1, ?_⟩
    intro hl r hr
    exact this.2.2.2 hl r (by simpa [newestFirst] using hr)

example : getLastUniqueEntries (1/10) [demoRes 3 true, demoRes 1 true, demoRes 2 false, demoRes 1 true] 5
    = some [demoRes 1 true, demoRes 2 false, demoRes 3 true] := by decide +kernel

/-- The code does not keep the limit: asked for at most one entry it returns two. -/
theorem C132_unique_fails : ∃ (b out : List (Result ℚ)) (max : Nat),
    getLastUniqueEntries (1/10) b max = some out ∧ max < out.length := by
  exact ⟨[demoRes 1 true, demoRes 2 true], [demoRes 2 true, demoRes 1 true], 1, by decide +kernel⟩

end Verif.Optim
