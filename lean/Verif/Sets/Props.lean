import Verif.Sets.Compaction

/-!
# Element arrays and element sets: properties C15 - C18

Handles are natural numbers, `0` is the invalid handle.  A marker bit is represented by the
elements on which it is set; `fun _ => false` is a clear marker.
-/

namespace Verif.Sets

/-! ## C15: set algebra on arrays -/

/-- A list of elements: no invalid handle. -/
def Elements (l : List Nat) : Prop := ∀ x ∈ l, x ≠ 0

instance (l : List Nat) : Decidable (Elements l) := inferInstanceAs (Decidable (∀ x ∈ l, x ≠ 0))

/-- `Unite` on a non-empty array without repetitions: the result lists the elements of both
operands in the order of first appearance, each once, and the marker it used is clear
again. -/
theorem C15_unite_partial (a b : List Nat) (ha : Elements a) (hb : Elements b) (hn : a.Nodup)
    (hne : a ≠ []) :
    ∃ c, arrUnite a b (fun _ => false) = some (c, fun _ => false) ∧
      c = firstAppearances (a ++ b) ∧ c.Nodup ∧ ∀ x, x ∈ c ↔ x ∈ a ∨ x ∈ b := by
  obtain ⟨mk', h1, h2, h3⟩ := uniteLoop_eq b a (setArr (fun _ => false) a) hb (by
    intro x hx; rw [setArr_apply]; simp [hx])
  have e : a ++ (firstAppearances b).filter (· ∉ a) = firstAppearances (a ++ b) := by
    rw [firstAppearances_append, firstAppearances_nodup hn]
  rw [e] at h1
  have hz : ∀ x ∈ firstAppearances (a ++ b), x ≠ 0 := by
    intro x hx
    rw [mem_firstAppearances, List.mem_append] at hx
    exact hx.elim (ha x) (hb x)
  refine ⟨_, ?_, rfl, nodup_firstAppearances _, fun x => ?_⟩
  · rw [arrUnite, if_neg hne, setAll_eq _ _ ha]
    simp only [h1]
    rw [remAll_eq _ _ hz]
    simp only [Option.some.injEq, Prod.mk.injEq, true_and]
    apply rem_clean
    intro x hx
    have hx0 : x ≠ 0 := by
      rintro rfl
      rw [h3, setArr_apply] at hx
      simp at hx
    exact ⟨hx0, (mem_firstAppearances _ _).2 ((h2 x hx0).1 hx)⟩
  · rw [mem_firstAppearances, List.mem_append]

example : Elements [5, 3] ∧ Elements [3, 7, 7] ∧ [5, 3].Nodup ∧ [5, 3] ≠ [] ∧
    (arrUnite [5, 3] [3, 7, 7] (fun _ => false)).map Prod.fst = some [5, 3, 7] := by decide +kernel

/-- `Unite` on an empty array copies the operand with its repetitions. -/
theorem C15_unite_fails : ∃ b, Elements b ∧
    (arrUnite [] b (fun _ => false)).map Prod.fst = some b ∧ ¬ b.Nodup :=
  ⟨[7, 7], by decide +kernel⟩

/-- `Unite` on an empty array gives the operand, so that it is right for operands without
repetitions. -/
theorem C15_unite_empty (b : List Nat) (mk : Marks) : arrUnite [] b mk = some (b, mk) := rfl

/-- `Subtract`: the elements of the array that are not in the operand, in their order. -/
theorem C15_subtract (a b : List Nat) (ha : Elements a) :
    ∃ c, arrSubtract a b (fun _ => false) = some (c, fun _ => false) ∧
      c = a.filter (· ∉ b) ∧ (a.Nodup → c.Nodup) ∧ ∀ x, x ∈ c ↔ x ∈ a ∧ x ∉ b := by
  refine ⟨a.filter (· ∉ b), ?_, rfl, fun h => h.filter _, fun x => by simp⟩
  rw [arrSubtract]
  by_cases h : a = []
  · subst h; simp
  · rw [if_neg h, compact_eq _ _ _ a 0 0 rfl (Nat.le_refl _) (by rw [List.drop_zero]; exact ha)]
    simp only [rem_set_clean, List.take_zero, List.nil_append, List.drop_zero]
    congr 2
    apply List.filter_congr
    intro x hx
    rw [setArr_apply]
    simp [ha x hx]

example : Elements [5, 3, 7] ∧
    (arrSubtract [5, 3, 7] [3, 0, 9] (fun _ => false)).map Prod.fst = some [5, 7] := by
  refine ⟨by decide +kernel, ?_⟩
  obtain ⟨c, h1, h2, _⟩ := C15_subtract [5, 3, 7] [3, 0, 9] (by decide +kernel)
  rw [h1, h2]; decide +kernel

/-- `Intersect`: the elements of the array that are in the operand, in their order. -/
theorem C15_intersect (a b : List Nat) (ha : Elements a) :
    ∃ c, arrIntersect a b (fun _ => false) = some (c, fun _ => false) ∧
      c = a.filter (· ∈ b) ∧ (a.Nodup → c.Nodup) ∧ ∀ x, x ∈ c ↔ x ∈ a ∧ x ∈ b := by
  refine ⟨a.filter (· ∈ b), ?_, rfl, fun h => h.filter _, fun x => by simp⟩
  rw [arrIntersect]
  by_cases h : a = []
  · subst h; simp
  · rw [if_neg h, compact_eq _ _ _ a 0 0 rfl (Nat.le_refl _) (by rw [List.drop_zero]; exact ha)]
    simp only [rem_set_clean, List.take_zero, List.nil_append, List.drop_zero]
    congr 2
    apply List.filter_congr
    intro x hx
    rw [setArr_apply]
    simp [ha x hx]

example : Elements [5, 3, 7] ∧
    (arrIntersect [5, 3, 7] [7, 5, 0] (fun _ => false)).map Prod.fst = some [5, 7] := by
  refine ⟨by decide +kernel, ?_⟩
  obtain ⟨c, h1, h2, _⟩ := C15_intersect [5, 3, 7] [7, 5, 0] (by decide +kernel)
  rw [h1, h2]; decide +kernel

/-- `ElementSet::Union`, for any contents of the two sets, holes included. -/
theorem C15_set_union (a b : List Nat) :
    ∃ c, unionArr a b (fun _ => false) = some (c, fun _ => false) ∧
      c = firstAppearances ((a ++ b).filter (· ≠ 0)) ∧ c.Nodup ∧
      ∀ x, x ∈ c ↔ x ≠ 0 ∧ (x ∈ a ∨ x ∈ b) := by
  obtain ⟨h1, h2⟩ := appendNew_eq a [] (fun _ => false)
  obtain ⟨h3, h4⟩ := appendNew_eq b (appendNew a [] (fun _ => false)).1
    (appendNew a [] (fun _ => false)).2
  have e : (appendNew b (appendNew a [] fun _ => false).1 (appendNew a [] fun _ => false).2).1
      = firstAppearances ((a ++ b).filter (· ≠ 0)) := by
    rw [h3, h1, List.filter_append, firstAppearances_append]
    congr 1
    · rw [List.nil_append, List.filter_eq_self.2 (by simp)]
    · apply List.filter_congr
      intro x _
      rw [h2]; simp [valid]
  refine ⟨_, ?_, rfl, nodup_firstAppearances _, fun x => ?_⟩
  · simp only [unionArr, e]
    rw [remAll_eq]
    · simp only [Option.some.injEq, Prod.mk.injEq, true_and]
      apply rem_clean
      intro x hx
      rw [h4, h2] at hx
      simp only [Bool.false_or, Bool.or_eq_true, decide_eq_true_eq, mem_valid] at hx
      rw [mem_firstAppearances]
      simp only [List.mem_filter, List.mem_append, decide_eq_true_eq]
      rcases hx with h | h
      · exact ⟨h.2, .inl h.1, h.2⟩
      · exact ⟨h.2, .inr h.1, h.2⟩
    · intro x hx
      rw [mem_firstAppearances] at hx
      simpa using (List.mem_filter.1 hx).2
  · rw [mem_firstAppearances]
    simp only [List.mem_filter, List.mem_append, decide_eq_true_eq]
    exact and_comm

/-- `ElementSet::Difference`. -/
theorem C15_set_difference (a b : List Nat) :
    ∃ c, differenceArr a b (fun _ => false) = some (c, fun _ => false) ∧
      c = (firstAppearances (a.filter (· ≠ 0))).filter (· ∉ b) ∧ c.Nodup ∧
      ∀ x, x ∈ c ↔ x ≠ 0 ∧ x ∈ a ∧ x ∉ b := by
  obtain ⟨h1, h2⟩ := appendNew_eq a [] (setArr (fun _ => false) b)
  have e : (appendNew a [] (setArr (fun _ => false) b)).1
      = (firstAppearances (a.filter (· ≠ 0))).filter (· ∉ b) := by
    rw [h1, List.nil_append]
    apply List.filter_congr
    intro x hx
    have : x ≠ 0 := by
      rw [mem_firstAppearances] at hx
      exact (mem_valid.1 hx).2
    rw [setArr_apply]; simp [this]
  refine ⟨_, ?_, rfl, (nodup_firstAppearances _).filter _, fun x => ?_⟩
  · simp only [differenceArr, e]
    rw [remAll_eq]
    · simp only [Option.some.injEq, Prod.mk.injEq, true_and]
      apply rem_clean
      intro x hx
      rw [remArr_apply, h2, setArr_apply] at hx
      simp only [Bool.false_or, Bool.and_eq_true, Bool.or_eq_true, decide_eq_true_eq, mem_valid,
        Bool.not_eq_true', decide_eq_false_iff_not] at hx
      rcases hx.1 with h | h
      · exact absurd h hx.2
      · refine ⟨h.2, List.mem_filter.2 ⟨(mem_firstAppearances _ _).2 (mem_valid.2 h), ?_⟩⟩
        simp only [decide_eq_true_eq]
        exact fun hb => hx.2 ⟨h.2, hb⟩
    · intro x hx
      have := (List.mem_filter.1 hx).1
      rw [mem_firstAppearances] at this
      exact (mem_valid.1 this).2
  · rw [List.mem_filter, mem_firstAppearances]
    simp only [List.mem_filter, decide_eq_true_eq]
    exact ⟨fun h => ⟨h.1.2, h.1.1, h.2⟩, fun h => ⟨⟨h.2.1, h.1⟩, h.2.2⟩⟩

/-- `ElementSet::Intersection`. -/
theorem C15_set_intersection (a b : List Nat) :
    ∃ c, intersectionArr a b (fun _ => false) (fun _ => false)
        = some (c, (fun _ => false), fun _ => false) ∧
      c = (firstAppearances (a.filter (· ≠ 0))).filter (· ∈ b) ∧ c.Nodup ∧
      ∀ x, x ∈ c ↔ x ≠ 0 ∧ x ∈ a ∧ x ∈ b := by
  obtain ⟨h1, h2⟩ := appendCommon_eq (setArr (fun _ => false) b) a [] (fun _ => false)
  have hb : ∀ x, x ≠ 0 → (setArr (fun _ => false) b x = true ↔ x ∈ b) := by
    intro x hx; rw [setArr_apply]; simp [hx]
  have e : (appendCommon (setArr (fun _ => false) b) a [] (fun _ => false)).1
      = (firstAppearances (a.filter (· ≠ 0))).filter (· ∈ b) := by
    rw [h1, List.nil_append]
    apply List.filter_congr
    intro x hx
    have : x ≠ 0 := by
      rw [mem_firstAppearances] at hx
      exact (mem_valid.1 hx).2
    simp only [and_true, hb x this]
  refine ⟨_, ?_, rfl, (nodup_firstAppearances _).filter _, fun x => ?_⟩
  · simp only [intersectionArr, e, rem_set_clean]
    rw [remAll_eq]
    · simp only [Option.some.injEq, Prod.mk.injEq, true_and]
      apply rem_clean
      intro x hx
      rw [h2] at hx
      simp only [Bool.false_or, decide_eq_true_eq, mem_valid] at hx
      refine ⟨hx.1.2, List.mem_filter.2 ⟨(mem_firstAppearances _ _).2 (mem_valid.2 hx.1), ?_⟩⟩
      simp only [decide_eq_true_eq]
      exact (hb x hx.1.2).1 hx.2
    · intro x hx
      have := (List.mem_filter.1 hx).1
      rw [mem_firstAppearances] at this
      exact (mem_valid.1 this).2
  · rw [List.mem_filter, mem_firstAppearances]
    simp only [List.mem_filter, decide_eq_true_eq]
    exact ⟨fun h => ⟨h.1.2, h.1.1, h.2⟩, fun h => ⟨⟨h.2.1, h.1⟩, h.2.2⟩⟩

example : (unionArr [0, 4, 2, 0, 4] [2, 0, 9] (fun _ => false)).map Prod.fst = some [4, 2, 9] ∧
    (differenceArr [0, 4, 2, 0, 4] [2, 0, 9] (fun _ => false)).map Prod.fst = some [4] ∧
    (intersectionArr [0, 4, 2, 0, 4] [2, 0, 9] (fun _ => false) (fun _ => false)).map Prod.fst
      = some [2] := by decide +kernel

/-! ## C16: histories of set operations -/

/-- The arguments a caller may give: elements, not the invalid handle; lists of added
elements without repetitions; a set is not subtracted from itself. -/
def Allowed : Op → Prop
  | .add _ e => e ≠ 0
  | .addMany _ hs => Elements hs ∧ hs.Nodup
  | .remove _ e => e ≠ 0
  | .removeMany _ _ => True
  | .subtract s o => s ≠ o
  | .subtractArr _ _ => True
  | .intersect _ _ => True
  | .intersectArr _ _ => True
  | .unite _ _ => False
  | .eraseIt _ _ => False
  | .clear _ => True

/-- The mathematical sets after a history, starting from empty sets. -/
def specRun (ops : List Op) : Family :=
  ops.foldl (specStep fun _ _ => 0) (fun _ _ => False)

/-- The state agrees with a family of mathematical sets. -/
structure Agrees (st : St) (A : Family) : Prop where
  good : ∀ s, Good (st.sets s)
  same : ∀ s x, x ∈ elements (st.sets s) ↔ A s x
  clean : st.mark = fun _ => false

theorem agrees_upd {st : St} {A : Family} {P : Nat → Prop} {e : ESet} {s : Nat} (h : Agrees st A)
    (hg : Good e) (hm : ∀ x, x ∈ valid e.lc ↔ P x) (mk : Marks) (hmk : mk = fun _ => false) :
    Agrees { st.upd s e with mark := mk } (A.upd s P) := by
  refine ⟨fun t => ?_, fun t x => ?_, hmk⟩
  · simp only [St.upd]; split
    · exact hg
    · exact h.good t
  · simp only [St.upd, Family.upd]; split
    · rw [elements_eq]; exact hm x
    · exact h.same t x

theorem step_agrees {st : St} {A : Family} (h : Agrees st A) (o : Op) (ho : Allowed o) :
    ∃ st', step st o = some st' ∧ Agrees st' (specStep (fun _ _ => 0) A o) := by
  have hv : ∀ s x, x ∈ valid (st.sets s).lc ↔ A s x := fun s x => by
    rw [← elements_eq]; exact h.same s x
  have hset : ∀ l x, setArr st.mark l x = decide (x ≠ 0 ∧ x ∈ l) := by
    intro l x; rw [h.clean, setArr_apply]; simp
  have hne0 : ∀ s x, A s x → x ≠ 0 := fun s x hx => (mem_valid.1 ((hv s x).2 hx)).2
  cases o with
  | add s e =>
    obtain ⟨s', h1, h2, h3⟩ := addElement_spec (h.good s) ho
    refine ⟨st.upd s s', by simp [step, h1], ?_⟩
    exact agrees_upd h h2 (fun x => by rw [h3 x, hv]) st.mark h.clean
  | addMany s hs =>
    obtain ⟨s', h1, h2, h3⟩ := addElements_spec (h.good s) ho.1 ho.2
    refine ⟨{ st.upd s s' with mark := fun _ => false }, ?_, ?_⟩
    · simp only [step, h.clean, h1]
    · exact agrees_upd h h2 (fun x => by rw [h3 x, hv]) _ rfl
  | remove s e =>
    obtain ⟨h2, h3⟩ := removeElement_spec (e := e) (h.good s) ho
    exact ⟨_, rfl, agrees_upd h h2 (fun x => by rw [h3 x, hv]) st.mark h.clean⟩
  | removeMany s hs =>
    obtain ⟨h2, h3⟩ := eraseMarked_spec (setArr st.mark hs) true (h.good s)
    refine ⟨_, rfl, agrees_upd h h2 (fun x => ?_) _ (by rw [h.clean]; exact rem_set_clean hs)⟩
    rw [h3 x, hv, hset]
    simp only [ne_eq, decide_eq_true_eq, not_and]
    exact ⟨fun hh => ⟨hh.1, hh.2 (hne0 s x hh.1)⟩, fun hh => ⟨hh.1, fun _ => hh.2⟩⟩
  | subtractArr s hs =>
    obtain ⟨h2, h3⟩ := eraseMarked_spec (setArr st.mark hs) true (h.good s)
    refine ⟨_, rfl, agrees_upd h h2 (fun x => ?_) _ (by rw [h.clean]; exact rem_set_clean hs)⟩
    rw [h3 x, hv, hset]
    simp only [ne_eq, decide_eq_true_eq, not_and]
    exact ⟨fun hh => ⟨hh.1, hh.2 (hne0 s x hh.1)⟩, fun hh => ⟨hh.1, fun _ => hh.2⟩⟩
  | intersectArr s hs =>
    obtain ⟨h2, h3⟩ := eraseMarked_spec (setArr st.mark hs) false (h.good s)
    refine ⟨_, rfl, agrees_upd h h2 (fun x => ?_) _ (by rw [h.clean]; exact rem_set_clean hs)⟩
    rw [h3 x, hv, hset]
    simp only [ne_eq, decide_eq_false_iff_not, not_not]
    exact ⟨fun hh => ⟨hh.1, hh.2.2⟩, fun hh => ⟨hh.1, hne0 s x hh.1, hh.2⟩⟩
  | subtract s o =>
    obtain ⟨h2, h3⟩ := eraseMarked_spec (setArr st.mark (st.sets o).lc) true (h.good s)
    refine ⟨_, rfl, agrees_upd h h2 (fun x => ?_) _ ?_⟩
    · rw [h3 x, hv, hset]
      simp only [ne_eq, decide_eq_true_eq]
      rw [and_comm (a := ¬ x = 0), ← mem_valid, hv]
    · simp only [Allowed] at ho
      simp only [St.upd, if_neg (Ne.symm ho)]
      rw [h.clean]; exact rem_set_clean _
  | intersect s o =>
    obtain ⟨h2, h3⟩ := eraseMarked_spec (setArr st.mark (st.sets o).lc) false (h.good s)
    refine ⟨_, rfl, agrees_upd h h2 (fun x => ?_) _ ?_⟩
    · rw [h3 x, hv, hset]
      simp only [ne_eq, decide_eq_false_iff_not, not_not]
      rw [and_comm (a := ¬ x = 0), ← mem_valid, hv]
    · simp only [St.upd]
      apply rem_clean
      intro x hx
      rw [hset] at hx
      have hx := of_decide_eq_true hx
      refine ⟨hx.1, ?_⟩
      split
      · rename_i hos
        subst hos
        refine (mem_valid.1 ((h3 x).2 ⟨mem_valid.2 ⟨hx.2, hx.1⟩, ?_⟩)).1
        rw [hset, decide_eq_true hx]; simp
      · exact hx.2
  | unite s o => exact ho.elim
  | eraseIt s pos => exact ho.elim
  | clear s =>
    refine ⟨_, rfl, agrees_upd h (good_clear _) (fun x => ?_) st.mark h.clean⟩
    simp [clearSet]

theorem run_agrees (ops : List Op) : ∀ (st : St) (A : Family), Agrees st A →
    (∀ o ∈ ops, Allowed o) →
    ∃ st', run st ops = some st' ∧ Agrees st' (ops.foldl (specStep fun _ _ => 0) A) := by
  induction ops with
  | nil => intro st A h _; exact ⟨st, rfl, h⟩
  | cons o ops ih =>
    intro st A h ha
    obtain ⟨st1, h1, h2⟩ := step_agrees h o (ha o (by simp))
    obtain ⟨st2, h3, h4⟩ := ih st1 _ h2 fun o' ho' => ha o' (by simp [ho'])
    exact ⟨st2, by simp only [run, h1]; exact h3, h4⟩

theorem agrees_init : Agrees St.init (fun _ _ => False) :=
  ⟨fun _ => good_empty, fun s x => by rw [elements_eq]; simp [St.init, ESet.empty], rfl⟩

/-- After any history of `AddElement`, `AddElements`, `RemoveElement`, `RemoveElements`,
`Subtract`, `Intersect` and `Clear` on any number of sets, every set enumerates exactly the
elements of the mathematical set under the same operations, each once, `Size()` is their
number and `Empty()` tells whether there are none.  Missing from C16: subtracting a set from
itself, see `C16_self_fails`. -/
theorem C16_histories_partial (ops : List Op) (h : ∀ o ∈ ops, Allowed o) :
    ∃ st, run St.init ops = some st ∧ ∀ s,
      (∀ x, x ∈ elements (st.sets s) ↔ specRun ops s x) ∧
      (elements (st.sets s)).Nodup ∧ size (st.sets s) = (elements (st.sets s)).length ∧
      (isEmpty (st.sets s) = true ↔ ∀ x, ¬ specRun ops s x) := by
  obtain ⟨st, h1, h2⟩ := run_agrees ops St.init _ agrees_init h
  refine ⟨st, h1, fun s => ⟨h2.same s, ?_, ?_, ?_⟩⟩
  · rw [elements_eq]; exact (h2.good s).nodup
  · rw [elements_eq]; exact size_eq (h2.good s)
  · have e := size_eq (h2.good s)
    rw [size] at e
    rw [isEmpty, e]
    have : ∀ x, x ∈ valid (st.sets s).lc ↔ specRun ops s x := fun x => by
      rw [← elements_eq]; exact h2.same s x
    simp only [beq_iff_eq, List.length_eq_zero_iff, List.eq_nil_iff_forall_not_mem, this]

/-- A history with holes that are filled again. -/
def exampleOps : List Op :=
  [.add 1 5, .add 1 6, .addMany 2 [6, 8], .remove 1 5, .add 1 9, .subtract 1 2, .clear 2,
   .add 1 4, .intersectArr 1 [4, 0, 7]]

example : (∀ o ∈ exampleOps, Allowed o) ∧
    (run St.init exampleOps).map (fun st => (elements (st.sets 1), (st.sets 1).lc)) =
      some ([4], [0, 4]) := by
  refine ⟨?_, by decide +kernel⟩
  intro o ho
  simp only [exampleOps, List.mem_cons, List.not_mem_nil, or_false] at ho
  rcases ho with rfl | rfl | rfl | rfl | rfl | rfl | rfl | rfl | rfl <;>
    simp [Allowed, Elements]

/-- Subtracting a set from itself leaves the marker on its former elements, so that a later
call that should do nothing removes an element from another set. -/
theorem C16_self_fails :
    (run St.init [.add 1 5, .add 2 5, .subtract 1 1, .removeMany 2 []]).map
        (fun st => elements (st.sets 2)) = some [] ∧
      specRun [.add 1 5, .add 2 5, .subtract 1 1, .removeMany 2 []] 2 5 := by
  refine ⟨by decide +kernel, ?_⟩
  simp [specRun, specStep, Family.upd]

/-- Erasing at an iterator removes the element it points at and no other. -/
theorem C16_erase (ops : List Op) (h : ∀ o ∈ ops, Allowed o) (st st' : St) (s : Nat) (pos : Nat)
    (hr : run St.init ops = some st) (he : step st (.eraseIt s pos) = some st') :
    ∃ e, (st.sets s).lc[pos]? = some e ∧ specRun ops s e ∧
      (∀ t x, x ∈ elements (st'.sets t) ↔ specRun ops t x ∧ ¬ (t = s ∧ x = e)) ∧
      ∀ t, (elements (st'.sets t)).Nodup ∧ size (st'.sets t) = (elements (st'.sets t)).length := by
  obtain ⟨st0, h1, h2⟩ := run_agrees ops St.init _ agrees_init h
  rw [hr] at h1
  cases h1
  cases hx : eraseAt (st.sets s) pos with
  | none => simp [step, hx] at he
  | some e' =>
    simp only [step, hx, Option.map_some, Option.some.injEq] at he
    obtain ⟨e, g1, g2, g3, g4⟩ := eraseAt_spec (h2.good s) hx
    have hmem : e ∈ valid (st.sets s).lc :=
      mem_valid.2 ⟨List.mem_of_getElem? g1, g2⟩
    have hg : ∀ t, Good (st'.sets t) := by
      intro t; rw [← he]; simp only [St.upd]; split
      · exact g3
      · exact h2.good t
    refine ⟨e, g1, (h2.same s e).1 (by rw [elements_eq]; exact hmem), fun t x => ?_, fun t => ?_⟩
    · have := h2.same t x
      rw [specRun]
      rw [← this, elements_eq, elements_eq, ← he]
      simp only [St.upd]
      by_cases ht : t = s
      · subst ht; simp [g4 x]
      · simp [ht]
    · rw [elements_eq]; exact ⟨(hg t).nodup, size_eq (hg t)⟩

example : ((run St.init [.add 1 5, .add 1 6]).bind fun st => step st (.eraseIt 1 0)).map
    (fun st => elements (st.sets 1)) = some [6] := by decide +kernel

/-! ## C17: adding many elements -/

/-- `AddElements` and `Unite` with a list of different elements, or with a set without holes,
on a set without comparator.  Missing: lists with repetitions (`C17_repeated_fails`), sets
with holes as the operand of `Unite` (`C17_unite_fails`) and sets with comparator (see
`Verif/Sets/SortedProps.lean`). -/
theorem C17_unsorted_partial (ops : List Op) (h : ∀ o ∈ ops, Allowed o) (st : St)
    (hr : run St.init ops = some st) (s o : Nat) (hs : List Nat) (hz : Elements hs)
    (hn : hs.Nodup) (ho : (st.sets o).lc = hs) :
    (∃ st', step st (.addMany s hs) = some st' ∧ (elements (st'.sets s)).Nodup ∧
      (∀ x, x ∈ elements (st'.sets s) ↔ x ∈ elements (st.sets s) ∨ x ∈ hs) ∧
      (∀ t, t ≠ s → elements (st'.sets t) = elements (st.sets t))) ∧
    (∃ st', step st (.unite s o) = some st' ∧ (elements (st'.sets s)).Nodup ∧
      (∀ x, x ∈ elements (st'.sets s) ↔
        x ∈ elements (st.sets s) ∨ x ∈ elements (st.sets o)) ∧
      (∀ t, t ≠ s → elements (st'.sets t) = elements (st.sets t))) := by
  obtain ⟨st0, h1, h2⟩ := run_agrees ops St.init _ agrees_init h
  rw [hr] at h1
  cases h1
  obtain ⟨s', g1, g2, g3⟩ := addElements_spec (h2.good s) hz hn
  constructor
  · refine ⟨{ st.upd s s' with mark := fun _ => false }, ?_, ?_, ?_, ?_⟩
    · simp only [step, h2.clean, g1]
    · simp only [St.upd, if_true, elements_eq]; exact g2.nodup
    · intro x; simp only [St.upd, if_true, elements_eq]; exact g3 x
    · intro t ht; simp only [St.upd, if_neg ht]
  · refine ⟨{ st.upd s s' with mark := fun _ => false }, ?_, ?_, ?_, ?_⟩
    · simp only [step, h2.clean, ho, g1]
    · simp only [St.upd, if_true, elements_eq]; exact g2.nodup
    · intro x
      simp only [St.upd, if_true, elements_eq, ho, valid_eq_self hz]
      exact g3 x
    · intro t ht; simp only [St.upd, if_neg ht]

example : ((run St.init [.add 1 5, .add 1 6, .remove 1 5, .addMany 2 [6, 7]]).bind fun st =>
      step st (.unite 1 2)).map (fun st => (elements (st.sets 1), (st.sets 2).lc)) =
    some ([7, 6], [6, 7]) ∧ Elements [6, 7] ∧ [6, 7].Nodup := by decide +kernel

/-- An element listed twice is added twice. -/
theorem C17_repeated_fails :
    (run St.init [.addMany 1 [5, 5]]).map (fun st => elements (st.sets 1)) = some [5, 5] := by
  decide +kernel

/-- `Unite` with a set that has a hole passes the invalid handle to `GetPrivateMarker`. -/
theorem C17_unite_fails :
    run St.init [.add 2 5, .add 2 6, .remove 2 5, .unite 1 2] = none := by
  have : (run St.init [.add 2 5, .add 2 6, .remove 2 5, .unite 1 2]).isNone = true := by
    decide +kernel
  simpa using this

/-! ## C18: compaction -/

/-- `ReorderEmpty` of a set without comparator is never right: if it returns at all the set
has lost elements; in particular a set without holes loses its last element. -/
theorem C18_unsorted_fails (s : ESet) (hc : s.cmp = .unsorted) :
    (∀ s', reorderEmpty s = some s' → (elements s').length < (elements s).length) ∧
    (s.holes = [] → Elements s.lc → s.lc ≠ [] →
      ∃ s', reorderEmpty s = some s' ∧ elements s' = (elements s).dropLast) := by
  constructor
  · intro s' h
    rw [reorderEmpty, if_pos hc] at h
    rw [elements_eq, elements_eq]
    exact reorderUnsorted_lt h
  · intro hh hz hn
    refine ⟨_, by rw [reorderEmpty, if_pos hc]; exact reorderUnsorted_full hh hz hn, ?_⟩
    rw [elements_eq, elements_eq, valid_eq_self hz, valid_eq_self]
    intro x hx
    exact hz x ((List.dropLast_sublist _).subset hx)

example : reorderEmpty ⟨[5, 6, 7], [], 0, .unsorted⟩ = some ⟨[5, 6], [], 0, .unsorted⟩ ∧
    reorderEmpty ⟨[0, 5, 6, 7], [0], 0, .unsorted⟩ = some ⟨[], [], 0, .unsorted⟩ := by
  constructor
  · simp [reorderEmpty, reorderUnsorted, reorderLoop, skipBack]
  · simp [reorderEmpty, reorderUnsorted, reorderLoop, skipBack]

/-- `ReorderEmpty` of a set with comparator keeps elements and order if the set has no holes
or its first entry is a hole; the sorted part is then the compacted sorted part. -/
theorem C18_sorted_partial (s : ESet) (hc : s.cmp ≠ .unsorted) (hs : s.sorted ≤ s.lc.length)
    (hh : s.holes = [] ∨ ∃ l, s.lc = 0 :: l) :
    ∃ s', reorderEmpty s = some s' ∧ elements s' = elements s ∧ s'.cmp = s.cmp ∧
      (s'.holes = []) ∧
      (s.holes ≠ [] → s'.lc = elements s ∧
        s'.sorted = ((s.lc.take s.sorted).filter (· ≠ 0)).length) := by
  rw [reorderEmpty, if_neg hc]
  by_cases h : s.holes = []
  · exact ⟨s, by rw [reorderSorted, if_pos h], rfl, rfl, h, fun h' => absurd h h'⟩
  · obtain ⟨l, hl⟩ := hh.resolve_left h
    obtain ⟨s', h1, h2, h3, h4, h5⟩ := reorderSorted_spec hs h
    have e : s'.lc = valid s.lc := by
      rw [h2, hl, shifted, if_pos rfl, shifted_true]; simp [valid]
    refine ⟨s', h1, ?_, h4, h3, fun _ => ⟨?_, ?_⟩⟩
    · rw [elements_eq, elements_eq, e, valid, valid, List.filter_filter]; simp
    · rw [elements_eq, e]
    · rw [h5]
      cases hn : s.sorted with
      | zero => simp [shifted]
      | succ n =>
        rw [hl, List.take_succ_cons, shifted, if_pos rfl, shifted_true]; simp [valid]

example : reorderEmpty ⟨[0, 5, 0, 7], [2, 0], 3, .handle⟩ = some ⟨[5, 7], [], 1, .handle⟩ := by
  simp [reorderEmpty, reorderSorted, shiftLoop]

/-- Otherwise exactly the elements before the first hole are lost. -/
theorem C18_sorted_fails (s : ESet) (hc : s.cmp ≠ .unsorted) (hs : s.sorted ≤ s.lc.length)
    (hh : s.holes ≠ []) (a b : List Nat) (ha : Elements a) (hl : s.lc = a ++ 0 :: b) :
    ∃ s', reorderEmpty s = some s' ∧ elements s = a ++ elements s' ∧
      elements s' = b.filter (· ≠ 0) := by
  rw [reorderEmpty, if_neg hc]
  obtain ⟨s', h1, h2, -⟩ := reorderSorted_spec hs hh
  have e : elements s' = valid b := by
    rw [elements_eq, h2, hl, valid_shifted_false _ _ ha]
  refine ⟨s', h1, ?_, e⟩
  rw [e, elements_eq, hl, valid, List.filter_append, List.filter_cons_of_neg (by simp)]
  congr 1
  exact valid_eq_self ha

example : reorderEmpty ⟨[3, 5, 0, 7], [2], 4, .handle⟩ = some ⟨[0, 0, 7], [], 3, .handle⟩ := by
  simp [reorderEmpty, reorderSorted, shiftLoop]

end Verif.Sets
