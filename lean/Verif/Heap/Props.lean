import Verif.Heap.Lemmas
import Mathlib.Order.Basic
import Mathlib.Order.Defs.LinearOrder
/-
C115, C116: the binary heaps behave as priority queues.

Specification: the content of the queue is a partial map from items to keys.  Nothing in the
specification mentions slots.
-/

namespace Verif.Heap

variable {R : Type}

/-! ### Specification -/

/-- Calls of the public interface. -/
inductive Op (R : Type) where
  | push (i : Nat) (key : R)
  | pop
  | peek
  | decrease (i : Nat) (key : R)
  /-- Only `BinaryHeapCustom` has this one. -/
  | increase (i : Nat) (key : R)
  | contains (i : Nat)
  | size
  | clear

/-- Results of calls. -/
inductive Res where
  | done
  | item (i : Option Nat)
  | flag (b : Bool)
  | count (n : Nat)

/-- What the caller has to respect, for a queue made for `n` items with content `m`: only absent
items below `n` are pushed, and `DecreaseKey` (`IncreaseKey`) is called for present items with a
key that is not larger (not smaller). -/
def Allowed [LE R] (n : Nat) (m : Nat → Option R) : Op R → Prop
  | .push i _ => i < n ∧ m i = none
  | .decrease i key => ∃ old, m i = some old ∧ key ≤ old
  | .increase i key => ∃ old, m i = some old ∧ old ≤ key
  | .contains i => i ≤ n
  | _ => True

/-- `i` is an item with the smallest key. -/
def Smallest [LE R] (m : Nat → Option R) (i : Nat) : Prop :=
  ∃ key, m i = some key ∧ ∀ j other, m j = some other → key ≤ other

/-- What a call returns and what it makes of the content. -/
def Correct [LE R] (m : Nat → Option R) : Op R → Res → (Nat → Option R) → Prop
  | .push i key, r, m' => r = .done ∧ ∀ j, m' j = if j = i then some key else m j
  | .pop, r, m' => (r = .item none ∧ (∀ j, m j = none) ∧ m' = m) ∨
      ∃ i, r = .item (some i) ∧ Smallest m i ∧ ∀ j, m' j = if j = i then none else m j
  | .peek, r, m' => m' = m ∧ ((r = .item none ∧ ∀ j, m j = none) ∨
      ∃ i, r = .item (some i) ∧ Smallest m i)
  | .decrease i key, r, m' => r = .done ∧ ∀ j, m' j = if j = i then some key else m j
  | .increase i key, r, m' => r = .done ∧ ∀ j, m' j = if j = i then some key else m j
  | .contains i, r, m' => r = .flag (m i).isSome ∧ m' = m
  | .size, r, m' => m' = m ∧ ∃ l : List Nat, l.Nodup ∧ (∀ i, i ∈ l ↔ m i ≠ none) ∧
      r = .count l.length
  | .clear, r, m' => r = .done ∧ ∀ j, m' j = none

/-- What happens to the array of keys, which the caller of `BinaryHeap` owns: a call sets the key
of its own item; `Clear` sets the keys of the items in the queue to `top`, if there is one. -/
def KeysAfter (top : Option R) (m : Nat → Option R) (old : Nat → R) : Op R → Nat → R
  | .push i key, j => if j = i then key else old j
  | .decrease i key, j => if j = i then key else old j
  | .increase i key, j => if j = i then key else old j
  | .clear, j => match top with
    | some t => if (m j).isSome then t else old j
    | none => old j
  | _, j => old j

/-! ### The calls of the model -/

/-- One call; `top` is the value stored by `BinaryHeap::Clear`, `none` for
`BinaryHeapCustom::Clear`. -/
def call (c : Cmp R) (top : Option R) (s : State R) : Op R → Option (State R × Res)
  | .push i key => (pushHeap c s i key).map fun t => (t, .done)
  | .pop => some ((popHeap c s).1, .item (popHeap c s).2)
  | .peek => some (s, .item (peekHeap s))
  | .decrease i key => (decreaseKey c s i key).map fun t => (t, .done)
  | .increase i key => (increaseKey c s i key).map fun t => (t, .done)
  | .contains i => (contains s i).map fun b => (s, .flag b)
  | .size => some (s, .count s.size)
  | .clear => some ((match top with
      | some t => clear c t s
      | none => clearCustom c s.size s), .done)

/-- Along a history of calls, as long as the caller respects `Allowed`, no call leaves the
arrays, every call is `Correct`, and the keys are those of `KeysAfter`. -/
def Behaves [LE R] (c : Cmp R) (top : Option R) (n : Nat) :
    State R → (Nat → Option R) → List (Op R) → Prop
  | _, _, [] => True
  | s, m, op :: rest => Allowed n m op →
      ∃ t r m', call c top s op = some (t, r) ∧ Correct m op r m' ∧
        t.keys = KeysAfter top m s.keys op ∧ Behaves c top n t m' rest

/-! ### Proof -/

/-- The content of the queue. -/
def content (s : State R) (i : Nat) : Option R :=
  if (s.index i).isSome then some (s.keys i) else none

theorem content_some {s : State R} {i : Nat} {k : R} (h : content s i = some k) :
    (∃ p, s.index i = some p) ∧ k = s.keys i := by
  unfold content at h
  split at h
  · rename_i g
    exact ⟨Option.isSome_iff_exists.1 g, (Option.some.inj h).symm⟩
  · simp at h

theorem content_none {s : State R} {i : Nat} : content s i = none ↔ s.index i = none := by
  unfold content
  cases h : s.index i <;> simp

theorem content_isSome (s : State R) (i : Nat) : (content s i).isSome = (s.index i).isSome := by
  unfold content
  cases h : s.index i <;> simp

theorem smallest_first [LE R] {c : Cmp R} (hc : Fits (· ≤ ·) c) {s : State R} (hl : Linked s)
    (ho : Ordered (· ≤ ·) s) (hs : s.size ≠ 0) : Smallest (content s) (s.heap 1) := by
  have h1 := hl.slot 1 (Nat.le_refl _) (by omega)
  refine ⟨s.keys (s.heap 1), by unfold content; rw [h1.1]; rfl, ?_⟩
  intro j other hj
  obtain ⟨⟨p, hp⟩, hk⟩ := content_some hj
  obtain ⟨a, b, d⟩ := hl.item j p hp
  have := first_le hc ho p a b
  rw [hk, ← d]
  exact this

theorem behaves_of [LE R] {c : Cmp R} (hc : Fits (· ≤ ·) c) (top : Option R) (ops : List (Op R)) :
    ∀ s : State R, Linked s → Ordered (· ≤ ·) s →
      Behaves c top s.sizeMax s (content s) ops := by
  induction ops with
  | nil => intro s _ _; trivial
  | cons op rest ih =>
    intro s hl ho hal
    -- it is enough to give the state, with its content
    have key : ∀ t r, call c top s op = some (t, r) → Linked t → Ordered (· ≤ ·) t →
        t.sizeMax = s.sizeMax → Correct (content s) op r (content t) →
        t.keys = KeysAfter top (content s) s.keys op →
        ∃ t r m', call c top s op = some (t, r) ∧ Correct (content s) op r m' ∧
          t.keys = KeysAfter top (content s) s.keys op ∧ Behaves c top s.sizeMax t m' rest := by
      intro t r h1 h2 h3 h4 h5 h6
      refine ⟨t, r, content t, h1, h5, h6, ?_⟩
      rw [← h4]
      exact ih t h2 h3
    have rekeyed : ∀ (t : State R) i k, t.keys = put s.keys i k →
        (∀ j, (t.index j).isSome = if j = i then true else (s.index j).isSome) →
        ∀ j, content t j = if j = i then some k else content s j := by
      intro t i k h1 h2 j
      unfold content
      rw [h2 j, h1]
      by_cases e : j = i
      · simp [e, put]
      · simp [e, put]
    cases op with
    | push i k =>
      obtain ⟨hi, hm⟩ := hal
      rw [content_none] at hm
      obtain ⟨t, h1, h2, h3, h4, h5, h6⟩ := pushHeap_linked c hl hi hm k
      refine key t .done (by simp [call, h1]) h2 (pushHeap_ordered hc hl ho hi hm h1) h3
        ⟨rfl, rekeyed t i k h5 h6⟩ ?_
      rw [h5]; rfl
    | decrease i k =>
      obtain ⟨old, hm, hle⟩ := hal
      obtain ⟨⟨p, hp⟩, hk⟩ := content_some hm
      rw [hk] at hle
      obtain ⟨t, h1, h2, h3, h4, h5, h6⟩ := decreaseKey_linked c hl hp k
      refine key t .done (by simp [call, h1]) h2 (decreaseKey_ordered hc hl ho hp hle h1) h3
        ⟨rfl, rekeyed t i k h5 ?_⟩ (by rw [h5]; rfl)
      intro j
      rw [h6 j]
      split
      · rename_i e; rw [e, hp]; rfl
      · rfl
    | increase i k =>
      obtain ⟨old, hm, hle⟩ := hal
      obtain ⟨⟨p, hp⟩, hk⟩ := content_some hm
      rw [hk] at hle
      obtain ⟨t, h1, h2, h3, h4, h5, h6⟩ := increaseKey_linked c hl hp k
      refine key t .done (by simp [call, h1]) h2 (increaseKey_ordered hc hl ho hp hle h1) h3
        ⟨rfl, rekeyed t i k h5 ?_⟩ (by rw [h5]; rfl)
      intro j
      rw [h6 j]
      split
      · rename_i e; rw [e, hp]; rfl
      · rfl
    | pop =>
      by_cases hs : s.size = 0
      · have he : popHeap c s = (s, none) := by unfold popHeap; rw [if_pos hs]
        refine key s (.item none) (by simp [call, he]) hl ho rfl (Or.inl ⟨rfl, ?_, rfl⟩) rfl
        intro j
        exact content_none.2 (empty_of_size hl hs j)
      · obtain ⟨t, h1, h2, h3, h4, h5, h6⟩ := popHeap_linked c hl hs
        have ho' := popHeap_ordered hc hl ho hs
        rw [h1] at ho'
        refine key t (.item (some (s.heap 1))) (by simp [call, h1]) h2 ho' h3
          (Or.inr ⟨_, rfl, smallest_first hc hl ho hs, ?_⟩) h5
        intro j
        unfold content
        rw [h6 j, h5]
        split <;> simp
    | peek =>
      refine key s (.item (peekHeap s)) rfl hl ho rfl ⟨rfl, ?_⟩ rfl
      unfold peekHeap
      split
      · rename_i hs
        exact Or.inl ⟨rfl, fun j => content_none.2 (empty_of_size hl hs j)⟩
      · rename_i hs
        exact Or.inr ⟨_, rfl, smallest_first hc hl ho hs⟩
    | contains i =>
      have hi : i ≤ s.sizeMax := hal
      refine key s (.flag (s.index i).isSome) (by simp [call, contains, hi]) hl ho rfl
        ⟨by rw [content_isSome], rfl⟩ rfl
    | size =>
      refine key s (.count s.size) rfl hl ho rfl
        ⟨rfl, (List.range s.size).map fun p => s.heap (p + 1), ?_, ?_, by simp⟩ rfl
      · rw [List.nodup_iff_pairwise_ne, List.pairwise_map]
        refine List.Pairwise.imp_of_mem ?_
          (List.nodup_iff_pairwise_ne.1 (List.nodup_range (n := s.size)))
        intro a b ha hb hab he
        have ha := List.mem_range.1 ha
        have hb := List.mem_range.1 hb
        have h1 := (hl.slot (a + 1) (by omega) (by omega)).1
        rw [he, (hl.slot (b + 1) (by omega) (by omega)).1] at h1
        have := Option.some.inj h1
        omega
      · intro i
        rw [Ne, content_none]
        constructor
        · intro h
          obtain ⟨p, hp, hpe⟩ := List.mem_map.1 h
          have hp := List.mem_range.1 hp
          rw [← hpe, (hl.slot (p + 1) (by omega) (by omega)).1]
          simp
        · intro h
          cases hi : s.index i with
          | none => exact absurd hi h
          | some p =>
            obtain ⟨a, b, d⟩ := hl.item i p hi
            refine List.mem_map.2 ⟨p - 1, List.mem_range.2 (by omega), ?_⟩
            have : p - 1 + 1 = p := by omega
            rw [this]; exact d
    | clear =>
      cases top with
      | some t =>
        obtain ⟨a, b, d, e⟩ := clear_spec c t hl
        refine key (clear c t s) .done rfl a ?_ b ⟨rfl, ?_⟩ ?_
        · intro p hp hp'; omega
        · intro j; exact content_none.2 (empty_of_size a d j)
        · funext j
          rw [e j]
          show _ = if (content s j).isSome then t else s.keys j
          rw [content_isSome]
      | none =>
        obtain ⟨a, b, d, e⟩ := clearCustom_spec c s.size s hl rfl
        refine key (clearCustom c s.size s) .done rfl a ?_ b ⟨rfl, ?_⟩ e
        · intro p hp hp'; omega
        · intro j; exact content_none.2 (empty_of_size a d j)

theorem fits_plain [LinearOrder R] : Fits (· ≤ ·) (Cmp.plain : Cmp R) where
  refl := le_refl
  trans := fun _ _ _ => le_trans
  above p q h := by simp [Cmp.plain] at h; exact le_of_lt h
  notAbove p q h := by simpa [Cmp.plain] using h
  right a b h := by simp [Cmp.plain] at h; exact le_of_lt h
  notRight a b h := by simpa [Cmp.plain] using h
  stop p q h := by simpa [Cmp.plain] using h
  notStop p q h := by simp [Cmp.plain] at h; exact le_of_lt h

theorem fits_custom [LinearOrder R] (less : R → R → Bool)
    (h1 : ∀ a b, less a b = true → a ≤ b) (h2 : ∀ a b, less a b = false → b ≤ a) :
    Fits (· ≤ ·) (Cmp.custom less) where
  refl := le_refl
  trans := fun _ _ _ => le_trans
  above p q h := by simp [Cmp.custom] at h; exact h2 _ _ h
  notAbove p q h := by simp [Cmp.custom] at h; exact h1 _ _ h
  right a b h := by simp [Cmp.custom] at h; exact h2 _ _ h
  notRight a b h := by simp [Cmp.custom] at h; exact h1 _ _ h
  stop p q h := h1 _ _ h
  notStop p q h := h2 _ _ h

/-! ### Theorems -/

/-- **C115.** `BinaryHeap` (and `BinaryHeapDense`), made for any number of items over any array of
keys, is a priority queue along every history of calls: no call leaves the arrays, `PopHeap` and
`PeekHeap` give an item with the smallest key or `ENUMUNDEF` exactly if the queue is empty,
`Contains` and `Size` tell what is in, and only the keys named in `KeysAfter` change. -/
theorem C115_heap [LinearOrder R] (n : Nat) (keys : Nat → R) (top : R) (ops : List (Op R)) :
    Behaves Cmp.plain (some top) n (make n keys) (fun _ => none) ops := by
  have := behaves_of (fits_plain (R := R)) (some top) ops (make n keys) (linked_make n keys)
    (ordered_make _ n keys)
  exact this

/-- Results of a history, to look at concrete cases. -/
def results (c : Cmp R) (top : Option R) : State R → List (Op R) → List (Option Res)
  | _, [] => []
  | s, op :: rest => match call c top s op with
    | some (t, r) => some r :: results c top t rest
    | none => [none]

/-- Items given by a history of calls. -/
def items (l : List (Option Res)) : List (Option Nat) :=
  l.filterMap fun r => match r with
    | some (.item i) => some i
    | _ => none

/-- The hypotheses of `Allowed` are met by this history, with equal keys, keys decreased and items
pushed again. -/
example : items (results Cmp.plain (some 1000) (make 6 fun _ => (0 : Int))
    [.push 3 5, .push 0 7, .push 5 5, .push 1 9, .decrease 1 2, .pop, .push 1 6, .pop, .pop, .pop,
      .peek, .pop, .pop]) =
    [some 1, some 3, some 5, some 1, some 0, some 0, none] := by decide +kernel

/-- Here is such a history in the form of the theorem: the second call is allowed and gives 4. -/
example : ∃ t, call Cmp.plain (some 1000) (make 5 fun _ => (0 : Int)) (.push 4 8) =
    some (t, .done) ∧ Allowed 5 (fun j => if j = 4 then some (8 : Int) else none) (.decrease 4 3) :=
  ⟨_, rfl, 8, rfl, by decide⟩

/-- Pushing an item a second time is outside of `Allowed`, and the queue then gives it twice. -/
example : items (results Cmp.plain (some 1000) (make 3 fun _ => (0 : Int))
    [.push 1 5, .push 1 7, .pop, .pop, .pop]) = [some 1, some 1, none] := by decide +kernel

/-- **C116**, for `PushHeap`, `PopHeap`, `PeekHeap`, `DecreaseKey`, `IncreaseKey`, `Contains`,
`Size` and `Clear`.  `BinaryHeapCustom` with a comparator that is either the strict or the
non-strict order (or answers anything in between for equal keys) is a priority queue along every
history of calls.  What is missing is `ChangeKey`, see `C116_change_fails`. -/
theorem C116_custom_partial [LinearOrder R] (less : R → R → Bool)
    (h1 : ∀ a b, less a b = true → a ≤ b) (h2 : ∀ a b, less a b = false → b ≤ a)
    (n : Nat) (keys : Nat → R) (ops : List (Op R)) :
    Behaves (Cmp.custom less) none n (make n keys) (fun _ => none) ops := by
  have := behaves_of (fits_custom less h1 h2) none ops (make n keys) (linked_make n keys)
    (ordered_make _ n keys)
  exact this

/-- `std::less` and `std::less_equal` are such comparators. -/
example : (∀ a b : Int, decide (a < b) = true → a ≤ b) ∧
    (∀ a b : Int, decide (a < b) = false → b ≤ a) ∧
    (∀ a b : Int, decide (a ≤ b) = true → a ≤ b) ∧
    (∀ a b : Int, decide (a ≤ b) = false → b ≤ a) := by
  refine ⟨?_, ?_, ?_, ?_⟩ <;> intro a b h <;> simp at h <;> omega

example : items (results (Cmp.custom fun a b : Int => decide (a < b)) none (make 6 fun _ => 0)
    [.push 3 5, .push 0 7, .push 5 5, .increase 3 9, .pop, .decrease 3 1, .pop, .pop, .pop]) =
    [some 5, some 3, some 0, none] := by decide +kernel

/-- **C116**, violated by `ChangeKey`: with `std::less`, after the keys 1, 2, 3 are pushed and the
key of the first item is changed to 10, the queue still gives this item first. -/
theorem C116_change_fails :
    (do
      let less := fun a b : Int => decide (a < b)
      let a ← pushHeap (Cmp.custom less) (make 3 fun _ => 0) 0 1
      let b ← pushHeap (Cmp.custom less) a 1 2
      let c ← pushHeap (Cmp.custom less) b 2 3
      let t ← changeKey less c 0 10
      pure ((popHeap (Cmp.custom less) t).2, t.keys 0, contains t 1, t.keys 1)) =
    some (some 0, 10, some true, 2) := by decide +kernel

/-- **C116**, violated by `ChangeKey` also for `std::less_equal`: then a key that becomes smaller
stays where it is. -/
theorem C116_change_equal_fails :
    (do
      let less := fun a b : Int => decide (a ≤ b)
      let a ← pushHeap (Cmp.custom less) (make 3 fun _ => 0) 0 1
      let b ← pushHeap (Cmp.custom less) a 1 2
      let t ← changeKey less b 1 0
      pure ((popHeap (Cmp.custom less) t).2, t.keys 0, contains t 1, t.keys 1)) =
    some (some 0, 1, some true, 0) := by decide +kernel

/-- **C116**, `ChangeKey` with a strict comparator and a key that is not larger than the old one
(the only case in the library where it is used) does what `DecreaseKey` does, so that the history
goes on as in `C116_custom_partial`. -/
theorem C116_change_partial [LinearOrder R] (less : R → R → Bool) (h : ∀ a, less a a = false)
    (s : State R) (i : Nat) (key : R) :
    changeKey less s i key = decreaseKey (Cmp.custom less) s i key := by
  unfold changeKey decreaseKey
  split
  · cases s.index i with
    | none => rfl
    | some p => simp [put_eq, h]
  · rfl

example : (∀ a : Int, decide (a < a) = false) := by simp

end Verif.Heap
