import Mathlib.Data.List.Nodup
import Mathlib.Data.List.Count

/-!
# The check of connections (C154)

Models `Element::CheckElementConnectivity` and `Element::CheckConnectivity` (`/repo/Source/Mesh/element.cpp` L1723-1806, L1853-1859). Printing is not modelled.
-/

namespace Verif.Adjacency.Check

/-- elements that the loop visits, connections, and whether the connections of an element are defined (L1733, L1769) -/
structure Mesh where
  live : List Nat
  high : Nat → List Nat
  low : Nat → List Nat
  hasHigh : Nat → Bool
  hasLow : Nat → Bool

/-- `InvalidHandle()` -/
def invalid : Nat := 0

/-- one loop of the check, L1736-1767 and L1772-1803: `back` are the connections of the other elements -/
def loop (me : Nat) (back : Nat → List Nat) : List Nat → Bool
  | [] => true
  | y :: r =>
    if y = invalid then false
    else
      let found := (back y).foldl (fun n z => if z = me then n + 1 else n) 0
      if found = 0 then false
      else if found > 1 then false
      else loop me back r

/-- `CheckElementConnectivity`, L1723-1806 -/
def checkElement (m : Mesh) (x : Nat) : Bool :=
  if m.hasHigh x && !loop x m.low (m.high x) then false
  else if m.hasLow x && !loop x m.high (m.low x) then false
  else true

/-- `CheckConnectivity`, L1853-1859: goes on after a failure -/
def check (m : Mesh) : List Nat → Bool → Bool
  | [], c => c
  | x :: r, c => check m r (if !checkElement m x then false else c)

/-! ## Specification -/

/-- connections are mutual, without repetitions and lead to elements of the mesh -/
structure Sound (m : Mesh) : Prop where
  both : ∀ x ∈ m.live, ∀ y ∈ m.live, y ∈ m.high x ↔ x ∈ m.low y
  once : ∀ x ∈ m.live, (m.high x).Nodup ∧ (m.low x).Nodup
  valid : ∀ x ∈ m.live, invalid ∉ m.high x ∧ invalid ∉ m.low x

/-! ## Lemmas -/

theorem found_eq (me : Nat) : ∀ (l : List Nat) (n : Nat), l.foldl (fun n z => if z = me then n + 1 else n) n = n + l.count me
  | [], n => by simp
  | z :: r, n => by
    rw [List.foldl_cons, found_eq me r, List.count_cons]
    by_cases h : z = me
    · simp [h]; omega
    · simp [h]

theorem loop_iff (me : Nat) (back : Nat → List Nat) : ∀ l : List Nat, loop me back l = true ↔ ∀ y ∈ l, y ≠ invalid ∧ (back y).count me = 1
  | [] => by simp [loop]
  | y :: r => by
    unfold loop
    simp only [found_eq, Nat.zero_add, List.forall_mem_cons, ← loop_iff me back r]
    by_cases hy : y = invalid
    · simp [hy]
    · rw [if_neg hy]
      by_cases h0 : (back y).count me = 0
      · simp [h0]
      · rw [if_neg h0]
        by_cases h1 : (back y).count me > 1
        · rw [if_pos h1]
          simp only [Bool.false_eq_true, false_iff, not_and]
          rintro ⟨_, h⟩; omega
        · rw [if_neg h1]
          have : (back y).count me = 1 := by omega
          simp [hy, this]

theorem check_iff (m : Mesh) : ∀ (l : List Nat) (c : Bool), check m l c = true ↔ c = true ∧ ∀ x ∈ l, checkElement m x = true
  | [], c => by simp [check]
  | x :: r, c => by
    unfold check
    rw [check_iff m r]
    cases h : checkElement m x <;> simp [h]

/-! ## The property -/

/-- **C154**: the check of a mesh succeeds exactly if connections are mutual, without repetitions and without invalid handles. The connections that are not defined are empty, and those that are
lead to elements of the mesh whose connections back are defined. -/
theorem C154_check (m : Mesh) (hh : ∀ x ∈ m.live, m.hasHigh x = false → m.high x = []) (hl : ∀ x ∈ m.live, m.hasLow x = false → m.low x = [])
    (hup : ∀ x ∈ m.live, ∀ y ∈ m.high x, y ≠ invalid → y ∈ m.live ∧ m.hasLow y = true)
    (hdn : ∀ x ∈ m.live, ∀ y ∈ m.low x, y ≠ invalid → y ∈ m.live ∧ m.hasHigh y = true) : check m m.live true = true ↔ Sound m := by
  have hel : ∀ x ∈ m.live, checkElement m x = true ↔ (∀ y ∈ m.high x, y ≠ invalid ∧ (m.low y).count x = 1) ∧ (∀ y ∈ m.low x, y ≠ invalid ∧ (m.high y).count x = 1) := by
    intro x hx
    rw [← loop_iff, ← loop_iff]
    unfold checkElement
    cases h1 : m.hasHigh x <;> cases h2 : m.hasLow x
    · simp [hh x hx h1, hl x hx h2, loop]
    · rw [hh x hx h1]; simp [loop]
    · rw [hl x hx h2]; simp [loop]
    · cases loop x m.low (m.high x) <;> cases loop x m.high (m.low x) <;> simp
  rw [check_iff]
  simp only [true_and]
  constructor
  · intro h
    have h1 : ∀ x ∈ m.live, ∀ y ∈ m.high x, y ≠ invalid ∧ (m.low y).count x = 1 := fun x hx => ((hel x hx).1 (h x hx)).1
    have h2 : ∀ x ∈ m.live, ∀ y ∈ m.low x, y ≠ invalid ∧ (m.high y).count x = 1 := fun x hx => ((hel x hx).1 (h x hx)).2
    refine ⟨?_, ?_, ?_⟩
    · intro x hx y hy
      constructor
      · intro hm
        exact List.count_pos_iff.1 (by rw [(h1 x hx y hm).2]; exact Nat.one_pos)
      · intro hm
        exact List.count_pos_iff.1 (by rw [(h2 y hy x hm).2]; exact Nat.one_pos)
    · intro x hx
      constructor
      · rw [List.nodup_iff_count_le_one]
        intro y
        by_cases hm : y ∈ m.high x
        · obtain ⟨a, b⟩ := h1 x hx y hm
          have hy := (hup x hx y hm a).1
          have : x ∈ m.low y := List.count_pos_iff.1 (by rw [b]; exact Nat.one_pos)
          exact Nat.le_of_eq (h2 y hy x this).2
        · rw [List.count_eq_zero_of_not_mem hm]; exact Nat.zero_le _
      · rw [List.nodup_iff_count_le_one]
        intro y
        by_cases hm : y ∈ m.low x
        · obtain ⟨a, b⟩ := h2 x hx y hm
          have hy := (hdn x hx y hm a).1
          have : x ∈ m.high y := List.count_pos_iff.1 (by rw [b]; exact Nat.one_pos)
          exact Nat.le_of_eq (h1 y hy x this).2
        · rw [List.count_eq_zero_of_not_mem hm]; exact Nat.zero_le _
    · intro x hx
      exact ⟨fun hm => (h1 x hx _ hm).1 rfl, fun hm => (h2 x hx _ hm).1 rfl⟩
  · intro s x hx
    refine (hel x hx).2 ⟨?_, ?_⟩
    · intro y hy
      have hv : y ≠ invalid := fun e => (s.valid x hx).1 (e ▸ hy)
      have hyl := (hup x hx y hy hv).1
      exact ⟨hv, List.count_eq_one_of_mem (s.once y hyl).2 ((s.both x hx y hyl).1 hy)⟩
    · intro y hy
      have hv : y ≠ invalid := fun e => (s.valid x hx).2 (e ▸ hy)
      have hyl := (hdn x hx y hy hv).1
      exact ⟨hv, List.count_eq_one_of_mem (s.once y hyl).1 ((s.both y hyl x hx).2 hy)⟩

/-- two nodes and an edge -/
def segment : Mesh := ⟨[1, 2, 3], fun x => if x = 3 then [] else [3], fun x => if x = 3 then [1, 2] else [], fun _ => true, fun _ => true⟩

/-- Hypotheses hold for two nodes and an edge; the check notices a connection listed twice. -/
example : check segment segment.live true = true ∧
    check { segment with high := fun x => if x = 1 then [3, 3] else if x = 2 then [3] else [] } segment.live true = false ∧
    Sound segment :=
  ⟨by decide, by decide, (C154_check segment (by decide) (by decide) (by decide) (by decide)).1 (by decide)⟩

end Verif.Adjacency.Check
