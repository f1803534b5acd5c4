import Verif.Heap.Model
import Mathlib.Data.List.Nodup
import Mathlib.Data.List.Perm.Subperm
/-
Invariants of the binary heap.
-/

namespace Verif.Heap

variable {R : Type}

/-- `heap` and `index` are inverse to each other on the slots in use. -/
structure Linked (s : State R) : Prop where
  room : s.size ≤ s.sizeMax
  slot : ∀ p, 1 ≤ p → p ≤ s.size → s.index (s.heap p) = some p ∧ s.heap p < s.sizeMax
  item : ∀ i p, s.index i = some p → 1 ≤ p ∧ p ≤ s.size ∧ s.heap p = i

/-- Laws of the comparisons with respect to an order of the keys. -/
structure Fits (le : R → R → Prop) (c : Cmp R) : Prop where
  refl : ∀ a, le a a
  trans : ∀ a b d, le a b → le b d → le a d
  above : ∀ p q, c.above p q = true → le q p
  notAbove : ∀ p q, c.above p q = false → le p q
  right : ∀ a b, c.right a b = true → le b a
  notRight : ∀ a b, c.right a b = false → le a b
  stop : ∀ p q, c.stop p q = true → le p q
  notStop : ∀ p q, c.stop p q = false → le q p

theorem put_eq {α : Type} (f : Nat → α) (i : Nat) (v : α) : put f i v i = v := by simp [put]

theorem put_ne {α : Type} (f : Nat → α) {i j : Nat} (v : α) (h : j ≠ i) : put f i v j = f j := by
  simp [put, h]

theorem swap_heap (s : State R) (i j p : Nat) :
    (swap s i j).heap p = if p = j then s.heap i else if p = i then s.heap j else s.heap p := by
  simp only [swap, put]

theorem swap_at (s : State R) (i j p : Nat) :
    (swap s i j).at p = if p = j then s.at i else if p = i then s.at j else s.at p := by
  simp only [State.at, swap_heap]
  have : (swap s i j).keys = s.keys := rfl
  rw [this]
  split
  · rfl
  · split <;> rfl

theorem linked_swap {s : State R} (h : Linked s) {i j : Nat} (hi : 1 ≤ i) (hi' : i ≤ s.size)
    (hj : 1 ≤ j) (hj' : j ≤ s.size) : Linked (swap s i j) := by
  have hinj : ∀ p q, 1 ≤ p → p ≤ s.size → 1 ≤ q → q ≤ s.size → s.heap p = s.heap q → p = q := by
    intro p q a b c d e
    have := (h.slot p a b).1
    rw [e, (h.slot q c d).1] at this
    exact (Option.some.inj this).symm
  have hidx : ∀ x, (swap s i j).index x =
      if x = s.heap i then some j else if x = s.heap j then some i else s.index x := by
    intro x
    have e1 : (put (put s.heap i (s.heap j)) j (s.heap i)) j = s.heap i := put_eq _ _ _
    have e2 : (put (put s.heap i (s.heap j)) j (s.heap i)) i = s.heap j := by
      by_cases e : i = j
      · subst e; exact put_eq _ _ _
      · rw [put_ne _ _ e]; exact put_eq _ _ _
    simp only [swap, e1, e2]
    rfl
  refine ⟨h.room, ?_, ?_⟩
  · intro p hp hp'
    have hp'' : p ≤ s.size := hp'
    rw [swap_heap, hidx]
    have hs : (swap s i j).sizeMax = s.sizeMax := rfl
    rw [hs]
    by_cases e1 : p = j
    · simp [e1, (h.slot i hi hi').2]
    · by_cases e2 : p = i
      · subst e2
        by_cases e3 : s.heap j = s.heap p
        · exact absurd (hinj _ _ hj hj' hi hi' e3).symm e1
        · simp [e1, e3, (h.slot j hj hj').2]
      · have n1 : s.heap p ≠ s.heap i := fun e => e2 (hinj _ _ hp hp'' hi hi' e)
        have n2 : s.heap p ≠ s.heap j := fun e => e1 (hinj _ _ hp hp'' hj hj' e)
        simp [e1, e2, n1, n2, (h.slot p hp hp'').1, (h.slot p hp hp'').2]
  · intro x p hx
    have hs : (swap s i j).size = s.size := rfl
    rw [hidx] at hx
    rw [swap_heap, hs]
    by_cases e1 : x = s.heap i
    · rw [if_pos e1] at hx
      have : j = p := Option.some.inj hx
      subst this
      exact ⟨hj, hj', by simp [e1]⟩
    · rw [if_neg e1] at hx
      by_cases e2 : x = s.heap j
      · rw [if_pos e2] at hx
        have : i = p := Option.some.inj hx
        subst this
        refine ⟨hi, hi', ?_⟩
        by_cases e3 : i = j
        · subst e3; simp [e2]
        · simp [e3, e2]
      · rw [if_neg e2] at hx
        obtain ⟨a, b, d⟩ := h.item x p hx
        refine ⟨a, b, ?_⟩
        have n1 : p ≠ j := by intro e; subst e; exact e2 d.symm
        have n2 : p ≠ i := by intro e; subst e; exact e1 d.symm
        simp [n1, n2, d]

/-- What the loops leave alone: the numbers, the keys, and which items are present. -/
structure Same (s t : State R) : Prop where
  sizeMax : t.sizeMax = s.sizeMax
  size : t.size = s.size
  keys : t.keys = s.keys
  present : ∀ i, (t.index i).isSome = (s.index i).isSome
  rest : ∀ p, s.size < p → t.heap p = s.heap p

theorem Same.refl (s : State R) : Same s s := ⟨rfl, rfl, rfl, fun _ => rfl, fun _ _ => rfl⟩

theorem Same.trans {s t u : State R} (a : Same s t) (b : Same t u) : Same s u :=
  ⟨b.sizeMax.trans a.sizeMax, b.size.trans a.size, b.keys.trans a.keys,
    fun i => (b.present i).trans (a.present i),
    fun p hp => (b.rest p (by rw [a.size]; exact hp)).trans (a.rest p hp)⟩

theorem same_swap {s : State R} (h : Linked s) {i j : Nat} (hi : 1 ≤ i) (hi' : i ≤ s.size)
    (hj : 1 ≤ j) (hj' : j ≤ s.size) : Same s (swap s i j) := by
  refine ⟨rfl, rfl, rfl, ?_, ?_⟩
  · intro x
    have e1 : (put (put s.heap i (s.heap j)) j (s.heap i)) j = s.heap i := put_eq _ _ _
    have e2 : (put (put s.heap i (s.heap j)) j (s.heap i)) i = s.heap j := by
      by_cases e : i = j
      · subst e; exact put_eq _ _ _
      · rw [put_ne _ _ e]; exact put_eq _ _ _
    simp only [swap, e1, e2]
    by_cases n1 : x = s.heap i
    · subst n1
      rw [put_eq, (h.slot i hi hi').1]; rfl
    · rw [put_ne _ _ n1]
      by_cases n2 : x = s.heap j
      · subst n2
        rw [put_eq, (h.slot j hj hj').1]; rfl
      · rw [put_ne _ _ n2]
  · intro p hp
    rw [swap_heap, if_neg (by omega), if_neg (by omega)]

/-- No slot is below its parent. -/
def Ordered (le : R → R → Prop) (s : State R) : Prop :=
  ∀ p, 2 ≤ p → p ≤ s.size → le (s.at (p / 2)) (s.at p)

theorem bubbleUp_linked (c : Cmp R) : ∀ k (s : State R), Linked s → 1 ≤ k → k ≤ s.size →
    Linked (bubbleUp c s k) ∧ Same s (bubbleUp c s k) := by
  intro k
  induction k using Nat.strongRecOn with
  | _ k ih =>
    intro s hl hk hk'
    rw [bubbleUp]
    split
    · rename_i h1
      split
      · have a : 1 ≤ k / 2 := by omega
        have b : k / 2 ≤ s.size := by omega
        obtain ⟨x, y⟩ := ih (k / 2) (by omega) (swap s k (k / 2)) (linked_swap hl hk hk' a b) a b
        exact ⟨x, (same_swap hl hk hk' a b).trans y⟩
      · exact ⟨hl, Same.refl s⟩
    · exact ⟨hl, Same.refl s⟩

theorem bubbleUp_ordered {le : R → R → Prop} {c : Cmp R} (hc : Fits le c) :
    ∀ k (s : State R), Linked s → 1 ≤ k → k ≤ s.size →
    (∀ p, 2 ≤ p → p ≤ s.size → p ≠ k → le (s.at (p / 2)) (s.at p)) →
    (∀ p, 2 ≤ p → p ≤ s.size → p / 2 = k → 2 ≤ k → le (s.at (k / 2)) (s.at p)) →
    Ordered le (bubbleUp c s k) := by
  intro k
  induction k using Nat.strongRecOn with
  | _ k ih =>
    intro s hl hk hk' h1 h2
    rw [bubbleUp]
    split
    · rename_i g1
      have a : 1 ≤ k / 2 := by omega
      have b : k / 2 ≤ s.size := by omega
      split
      · rename_i g2
        have g2 := hc.above _ _ g2
        apply ih (k / 2) (by omega) (swap s k (k / 2)) (linked_swap hl hk hk' a b) a b
        · intro p hp hp' hne
          have hp'' : p ≤ s.size := hp'
          rw [swap_at, swap_at, if_neg hne]
          by_cases e1 : p = k
          · subst e1
            rw [if_pos rfl, if_pos rfl]
            exact g2
          · rw [if_neg e1]
            by_cases e2 : p / 2 = k / 2
            · rw [if_pos e2]
              have := h1 p hp hp'' e1
              rw [e2] at this
              exact hc.trans _ _ _ g2 this
            · rw [if_neg e2]
              by_cases e3 : p / 2 = k
              · rw [if_pos e3]
                exact h2 p hp hp'' e3 (by omega)
              · rw [if_neg e3]
                exact h1 p hp hp'' e1
        · intro p hp hp' hpe h2k
          have hp'' : p ≤ s.size := hp'
          rw [swap_at, swap_at, if_neg (by omega), if_neg (by omega), if_neg (by omega)]
          have hq := h1 (k / 2) h2k b (by omega)
          by_cases e1 : p = k
          · rw [if_pos e1]; exact hq
          · rw [if_neg e1]
            have := h1 p hp hp'' e1
            rw [hpe] at this
            exact hc.trans _ _ _ hq this
      · rename_i g2
        have g2 := hc.notAbove _ _ (by simpa using g2)
        intro p hp hp'
        by_cases e : p = k
        · subst e; exact g2
        · exact h1 p hp hp' e
    · intro p hp hp'
      exact h1 p hp hp' (by omega)

theorem child_eq (c : Cmp R) (s : State R) (k : Nat) :
    child c s k = 2 * k ∨ (child c s k = 2 * k + 1 ∧ 2 * k + 1 ≤ s.size) := by
  unfold child
  split
  · right; exact ⟨rfl, by omega⟩
  · left; rfl

theorem child_min {le : R → R → Prop} {c : Cmp R} (hc : Fits le c) (s : State R) (k p : Nat)
    (hp : p ≤ s.size) (hk : p / 2 = k) : le (s.at (child c s k)) (s.at p) := by
  have hp2 : p = 2 * k ∨ p = 2 * k + 1 := by omega
  unfold child
  split
  · rename_i g
    have := hc.right _ _ g.2
    rcases hp2 with e | e
    · rw [e]; exact this
    · rw [e]; exact hc.refl _
  · rename_i g
    rcases hp2 with e | e
    · rw [e]; exact hc.refl _
    · have hlt : 2 * k < s.size := by omega
      have : c.right (s.at (2 * k)) (s.at (2 * k + 1)) = false := by
        cases hb : c.right (s.at (2 * k)) (s.at (2 * k + 1))
        · rfl
        · exact absurd ⟨hlt, hb⟩ g
      rw [e]; exact hc.notRight _ _ this

theorem bubbleDown_linked (c : Cmp R) : ∀ n k (s : State R), s.size - k = n → Linked s → 1 ≤ k →
    Linked (bubbleDown c s k) ∧ Same s (bubbleDown c s k) := by
  intro n
  induction n using Nat.strongRecOn with
  | _ n ih =>
    intro k s hn hl hk
    rw [bubbleDown]
    split
    · rename_i g
      split
      · exact ⟨hl, Same.refl s⟩
      · have hch : k < child c s k ∧ child c s k ≤ s.size := by
          rcases child_eq c s k with e | e
          · omega
          · omega
        have hs : (swap s k (child c s k)).size = s.size := rfl
        have hl' := linked_swap hl hk (by omega : k ≤ s.size) (by omega : 1 ≤ child c s k) hch.2
        have hs' := same_swap hl hk (by omega : k ≤ s.size) (by omega : 1 ≤ child c s k) hch.2
        obtain ⟨x, y⟩ := ih (s.size - child c s k) (by omega) (child c s k)
          (swap s k (child c s k)) (by rw [hs]) hl' (by omega)
        exact ⟨x, hs'.trans y⟩
    · exact ⟨hl, Same.refl s⟩

theorem bubbleDown_ordered {le : R → R → Prop} {c : Cmp R} (hc : Fits le c) :
    ∀ n k (s : State R), s.size - k = n → Linked s → 1 ≤ k →
    (∀ p, 2 ≤ p → p ≤ s.size → p / 2 ≠ k → le (s.at (p / 2)) (s.at p)) →
    (∀ p, 2 ≤ p → p ≤ s.size → p / 2 = k → 2 ≤ k → le (s.at (k / 2)) (s.at p)) →
    Ordered le (bubbleDown c s k) := by
  intro n
  induction n using Nat.strongRecOn with
  | _ n ih =>
    intro k s hn hl hk h1 h2
    rw [bubbleDown]
    split
    · rename_i g
      split
      · rename_i g2
        have g2 := hc.stop _ _ g2
        intro p hp hp'
        by_cases e : p / 2 = k
        · rw [e]
          exact hc.trans _ _ _ g2 (child_min hc s k p hp' e)
        · exact h1 p hp hp' e
      · rename_i g2
        have g2 := hc.notStop _ _ (by simpa using g2)
        have hch : k < child c s k ∧ child c s k ≤ s.size ∧ child c s k / 2 = k := by
          rcases child_eq c s k with e | e
          · omega
          · omega
        obtain ⟨c1, c2, c3⟩ := hch
        have hs : (swap s k (child c s k)).size = s.size := rfl
        have hl' := linked_swap hl hk (by omega : k ≤ s.size) (by omega : 1 ≤ child c s k) c2
        apply ih (s.size - child c s k) (by omega) (child c s k)
          (swap s k (child c s k)) (by rw [hs]) hl' (by omega)
        · intro p hp hp' hne
          have hp'' : p ≤ s.size := hp'
          rw [swap_at, swap_at, if_neg hne]
          by_cases e1 : p / 2 = k
          · rw [if_pos e1]
            by_cases e2 : p = child c s k
            · rw [if_pos e2]; exact g2
            · rw [if_neg e2, if_neg (by omega)]
              exact child_min hc s k p hp'' e1
          · rw [if_neg e1, if_neg (by intro e; rw [e, c3] at e1; exact e1 rfl)]
            by_cases e2 : p = k
            · rw [if_pos e2]
              have := h2 (child c s k) (by omega) c2 c3 (by omega)
              rw [e2]; exact this
            · rw [if_neg e2]
              exact h1 p hp hp'' e1
        · intro p hp hp' hpe h2k
          have hp'' : p ≤ s.size := hp'
          rw [swap_at, swap_at, c3, if_neg (by omega), if_pos rfl, if_neg (by omega),
            if_neg (by omega)]
          have := h1 p hp hp'' (by omega)
          rw [hpe] at this
          exact this
    · intro p hp hp'
      exact h1 p hp hp' (by omega)

/-- The first slot has the smallest key. -/
theorem first_le {le : R → R → Prop} {c : Cmp R} (hc : Fits le c) {s : State R}
    (h : Ordered le s) : ∀ p, 1 ≤ p → p ≤ s.size → le (s.at 1) (s.at p) := by
  intro p
  induction p using Nat.strongRecOn with
  | _ p ih =>
    intro hp hp'
    by_cases e : p = 1
    · rw [e]; exact hc.refl _
    · exact hc.trans _ _ _ (ih (p / 2) (by omega) (by omega) (by omega)) (h p (by omega) hp')

theorem linked_make (len : Nat) (keys : Nat → R) : Linked (make len keys) :=
  ⟨Nat.zero_le _, fun p hp hp' => by simp [make] at hp'; omega, fun i p h => by simp [make] at h⟩

theorem ordered_make (le : R → R → Prop) (len : Nat) (keys : Nat → R) :
    Ordered le (make len keys) := by
  intro p hp hp'; simp [make] at hp'; omega

/-! ### Push -/

theorem push_linked {s : State R} (hl : Linked s) {i : Nat} (hi : i < s.sizeMax)
    (hroom : s.size + 1 ≤ s.sizeMax) (hn : s.index i = none) (key : R) :
    Linked { s with size := s.size + 1, index := put s.index i (some (s.size + 1)),
                    heap := put s.heap (s.size + 1) i, keys := put s.keys i key } := by
  refine ⟨hroom, ?_, ?_⟩
  · intro p hp hp'
    have hp' : p ≤ s.size + 1 := hp'
    show put s.index i (some (s.size + 1)) (put s.heap (s.size + 1) i p) = some p ∧
      put s.heap (s.size + 1) i p < s.sizeMax
    by_cases e : p = s.size + 1
    · subst e
      rw [put_eq, put_eq]; exact ⟨rfl, hi⟩
    · rw [put_ne _ _ e]
      have := hl.slot p hp (by omega)
      refine ⟨?_, this.2⟩
      rw [put_ne _ _ (by intro e'; rw [e', hn] at this; simp at this)]
      exact this.1
  · intro x p hx
    change put s.index i (some (s.size + 1)) x = some p at hx
    show 1 ≤ p ∧ p ≤ s.size + 1 ∧ put s.heap (s.size + 1) i p = x
    by_cases e : x = i
    · subst e
      rw [put_eq] at hx
      have : s.size + 1 = p := Option.some.inj hx
      subst this
      exact ⟨by omega, Nat.le_refl _, put_eq _ _ _⟩
    · rw [put_ne _ _ e] at hx
      obtain ⟨a, b, d⟩ := hl.item x p hx
      exact ⟨a, by omega, by rw [put_ne _ _ (by omega)]; exact d⟩

/-- Number of items: no room is left only when all the numbers are in. -/
theorem room_of_absent {s : State R} (hl : Linked s) {i : Nat} (hi : i < s.sizeMax)
    (hn : s.index i = none) : s.size + 1 ≤ s.sizeMax := by
  by_contra hcon
  have hsz : s.size = s.sizeMax := by have := hl.room; omega
  -- the items in the slots 1 … size are `size` different numbers below `sizeMax`
  have hnd : ((List.range s.size).map fun p => s.heap (p + 1)).Nodup := by
    rw [List.nodup_iff_pairwise_ne, List.pairwise_map]
    refine List.Pairwise.imp_of_mem ?_ (List.nodup_iff_pairwise_ne.1 (List.nodup_range (n := s.size)))
    intro a b ha hb hab he
    have ha := List.mem_range.1 ha
    have hb := List.mem_range.1 hb
    have h1 := (hl.slot (a + 1) (by omega) (by omega)).1
    rw [he, (hl.slot (b + 1) (by omega) (by omega)).1] at h1
    have := Option.some.inj h1
    omega
  have hni : i ∉ (List.range s.size).map fun p => s.heap (p + 1) := by
    intro hm
    obtain ⟨p, hp, hpe⟩ := List.mem_map.1 hm
    have hp := List.mem_range.1 hp
    have := (hl.slot (p + 1) (by omega) (by omega)).1
    rw [hpe, hn] at this
    simp at this
  have hsub : i :: ((List.range s.size).map fun p => s.heap (p + 1)) ⊆ List.range s.sizeMax := by
    intro x hx
    rcases List.mem_cons.1 hx with e | hx
    · rw [e]; exact List.mem_range.2 hi
    · obtain ⟨p, hp, hpe⟩ := List.mem_map.1 hx
      have hp := List.mem_range.1 hp
      rw [← hpe]
      exact List.mem_range.2 (hl.slot (p + 1) (by omega) (by omega)).2
  have hlen := (List.subperm_of_subset (List.nodup_cons.2 ⟨hni, hnd⟩) hsub).length_le
  simp at hlen
  omega

theorem pushHeap_linked (c : Cmp R) {s : State R} (hl : Linked s) {i : Nat} (hi : i < s.sizeMax)
    (hn : s.index i = none) (key : R) : ∃ t, pushHeap c s i key = some t ∧ Linked t ∧
      t.sizeMax = s.sizeMax ∧ t.size = s.size + 1 ∧ t.keys = put s.keys i key ∧
      ∀ j, (t.index j).isSome = if j = i then true else (s.index j).isSome := by
  have hr := room_of_absent hl hi hn
  have hl' := push_linked hl hi hr hn key
  obtain ⟨a, b⟩ := bubbleUp_linked c (s.size + 1) _ hl' (by omega) (Nat.le_refl _)
  refine ⟨_, by unfold pushHeap; rw [if_pos ⟨hr, hi⟩], a, b.sizeMax, b.size, b.keys, ?_⟩
  intro j
  rw [b.present j]
  show (put s.index i (some (s.size + 1)) j).isSome = _
  unfold put
  split <;> rfl

theorem pushHeap_ordered {le : R → R → Prop} {c : Cmp R} (hc : Fits le c) {s t : State R}
    (hl : Linked s) (ho : Ordered le s) {i : Nat} (hi : i < s.sizeMax)
    (hn : s.index i = none) {key : R} (ht : pushHeap c s i key = some t) : Ordered le t := by
  have hr := room_of_absent hl hi hn
  unfold pushHeap at ht
  rw [if_pos ⟨hr, hi⟩] at ht
  rw [← Option.some.inj ht]
  apply bubbleUp_ordered hc (s.size + 1) _ (push_linked hl hi hr hn key) (by omega) (Nat.le_refl _)
  · intro p hp hp' hne
    have hp' : p ≤ s.size + 1 := hp'
    have e : ∀ q, 1 ≤ q → q ≤ s.size →
        State.at { s with size := s.size + 1, index := put s.index i (some (s.size + 1)),
                          heap := put s.heap (s.size + 1) i, keys := put s.keys i key } q =
          s.at q := by
      intro q hq hq'
      show put s.keys i key (put s.heap (s.size + 1) i q) = _
      rw [put_ne (s.heap) _ (by omega), put_ne]
      · rfl
      · intro e
        have := (hl.slot q hq hq').1
        rw [e, hn] at this
        simp at this
    rw [e _ (by omega) (by omega), e _ (by omega) (by omega)]
    exact ho p hp (by omega)
  · intro p hp hp' hpe h2
    have hp' : p ≤ s.size + 1 := hp'
    omega

/-! ### Pop -/

/-- The last two assignments of `PopHeap`. -/
def wipe (m q : Nat) (s : State R) : State R :=
  { s with index := put s.index m none, heap := put s.heap q undef }

theorem put_comm {α : Type} (f : Nat → α) {i j : Nat} (h : i ≠ j) (a b : α) :
    put (put f i a) j b = put (put f j b) i a := by
  funext x
  unfold put
  by_cases e : x = j
  · by_cases e' : x = i
    · exact absurd (e'.symm.trans e) h
    · simp only [if_pos e, if_neg e']
  · by_cases e' : x = i
    · simp only [if_pos e', if_neg e]
    · simp only [if_neg e', if_neg e]

theorem swap_wipe (s : State R) {i j m q : Nat} (hi : i ≠ q) (hj : j ≠ q) (hmi : s.heap i ≠ m)
    (hmj : s.heap j ≠ m) : swap (wipe m q s) i j = wipe m q (swap s i j) := by
  have e1 : (put s.heap q undef) i = s.heap i := put_ne _ _ hi
  have e2 : (put s.heap q undef) j = s.heap j := put_ne _ _ hj
  have e3 : put (put (put s.heap q undef) i (s.heap j)) j (s.heap i) =
      put (put (put s.heap i (s.heap j)) j (s.heap i)) q undef := by
    rw [put_comm _ (Ne.symm hi), put_comm _ (Ne.symm hj)]
  have e4 : (put (put s.heap i (s.heap j)) j (s.heap i)) j = s.heap i := put_eq _ _ _
  have e5 : (put (put s.heap i (s.heap j)) j (s.heap i)) i = s.heap j := by
    by_cases e : i = j
    · subst e; exact put_eq _ _ _
    · rw [put_ne _ _ e]; exact put_eq _ _ _
  unfold swap wipe
  simp only [e1, e2, e3, put_ne _ _ hi, put_ne _ _ hj, e4, e5]
  rw [put_comm _ (Ne.symm hmj), put_comm _ (Ne.symm hmi)]

theorem wipe_at (s : State R) {m q p : Nat} (h : p ≠ q) : (wipe m q s).at p = s.at p := by
  show s.keys (put s.heap q undef p) = _
  rw [put_ne _ _ h]; rfl

theorem child_wipe (c : Cmp R) (s : State R) {m q k : Nat} (hq : s.size < q)
    (hk : 2 * k ≤ s.size) : child c (wipe m q s) k = child c s k := by
  unfold child
  have hs : (wipe m q s).size = s.size := rfl
  rw [hs, wipe_at s (by omega : 2 * k ≠ q)]
  by_cases e : 2 * k < s.size
  · rw [wipe_at s (by omega : 2 * k + 1 ≠ q)]
  · rw [if_neg (fun h => e h.1), if_neg (fun h => e h.1)]

theorem bubbleDown_wipe (c : Cmp R) (m q : Nat) : ∀ n k (s : State R), s.size - k = n →
    s.size < q → (∀ p, 1 ≤ p → p ≤ s.size → s.heap p ≠ m) → 1 ≤ k →
    bubbleDown c (wipe m q s) k = wipe m q (bubbleDown c s k) := by
  intro n
  induction n using Nat.strongRecOn with
  | _ n ih =>
    intro k s hn hq hm hk
    rw [bubbleDown.eq_def c (wipe m q s) k, bubbleDown.eq_def c s k]
    have hs : (wipe m q s).size = s.size := rfl
    by_cases g : 2 * k ≤ s.size ∧ 0 < k
    · rw [dif_pos (by rw [hs]; exact g), dif_pos g]
      rw [child_wipe c s hq g.1]
      have hch : k < child c s k ∧ child c s k ≤ s.size := by
        rcases child_eq c s k with e | e
        · omega
        · omega
      rw [wipe_at s (by omega : k ≠ q), wipe_at s (by omega : child c s k ≠ q)]
      split
      · rfl
      · rw [swap_wipe s (by omega) (by omega) (hm k hk (by omega)) (hm _ (by omega) hch.2)]
        apply ih (s.size - child c s k) (by omega) (child c s k) (swap s k (child c s k)) rfl hq _ (by omega)
        intro p hp hp'
        have hp' : p ≤ s.size := hp'
        rw [swap_heap]
        split
        · exact hm k hk (by omega)
        · split
          · exact hm _ (by omega) hch.2
          · exact hm p hp hp'
    · rw [dif_neg (by rw [hs]; exact g), dif_neg g]

/-- State of the heap after the first slot was exchanged with the last one and given up. -/
def popped (s : State R) : State R :=
  wipe (s.heap 1) s.size { swap s 1 s.size with size := s.size - 1 }

theorem popHeap_eq (c : Cmp R) {s : State R} (hl : Linked s) (hs : s.size ≠ 0) :
    popHeap c s = (bubbleDown c (popped s) 1, some (s.heap 1)) := by
  unfold popHeap
  rw [if_neg hs]
  simp only
  have hl1 := linked_swap hl (Nat.le_refl 1) (by omega : 1 ≤ s.size) (by omega : 1 ≤ s.size)
    (Nat.le_refl _)
  have hm : ∀ p, 1 ≤ p → p ≤ s.size - 1 → (swap s 1 s.size).heap p ≠ s.heap 1 := by
    intro p hp hp' e
    have h1 := (hl1.slot p hp (by show p ≤ s.size; omega)).1
    have h2 := (hl1.slot s.size (by omega) (Nat.le_refl _)).1
    have h3 : (swap s 1 s.size).heap s.size = s.heap 1 := by rw [swap_heap, if_pos rfl]
    rw [h3] at h2
    rw [e, h2] at h1
    have := Option.some.inj h1
    omega
  have := bubbleDown_wipe c (s.heap 1) s.size _ 1
    { swap s 1 s.size with size := s.size - 1 } rfl (by show s.size - 1 < s.size; omega) hm
    (Nat.le_refl _)
  unfold popped
  rw [this]
  have hsz : ∀ (t : State R) k n, t.size - k = n → (bubbleDown c t k).size = t.size := by
    intro t k n
    induction n using Nat.strongRecOn generalizing t k with
    | _ n ih =>
      intro hn
      rw [bubbleDown]
      split
      · rename_i g
        split
        · rfl
        · have hch : k < child c t k := by
            rcases child_eq c t k with e | e
            · omega
            · omega
          rw [ih (t.size - child c t k) (by omega) (swap t k (child c t k)) _ rfl]
          rfl
      · rfl
  have h2 := hsz { swap s 1 s.size with size := s.size - 1 } 1 _ rfl
  have h2 : (bubbleDown c { swap s 1 s.size with size := s.size - 1 } 1).size = s.size - 1 := h2
  unfold wipe
  rw [h2]
  have : s.size - 1 + 1 = s.size := by omega
  rw [this]

theorem popped_linked {s : State R} (hl : Linked s) (hs : s.size ≠ 0) : Linked (popped s) := by
  have hl1 := linked_swap hl (Nat.le_refl 1) (by omega : 1 ≤ s.size) (by omega : 1 ≤ s.size)
    (Nat.le_refl _)
  have h3 : (swap s 1 s.size).heap s.size = s.heap 1 := by rw [swap_heap, if_pos rfl]
  have h2 := (hl1.slot s.size (by omega) (Nat.le_refl _)).1
  rw [h3] at h2
  have hroom := hl.room
  refine ⟨by show s.size - 1 ≤ s.sizeMax; omega, ?_, ?_⟩
  · intro p hp hp'
    have hp' : p ≤ s.size - 1 := hp'
    show put (swap s 1 s.size).index (s.heap 1) none (put (swap s 1 s.size).heap s.size undef p) =
      some p ∧ put (swap s 1 s.size).heap s.size undef p < s.sizeMax
    rw [put_ne (swap s 1 s.size).heap _ (by omega)]
    have := hl1.slot p hp (by show p ≤ s.size; omega)
    refine ⟨?_, this.2⟩
    rw [put_ne]
    · exact this.1
    · intro e
      have h1 := this.1
      rw [e, h2] at h1
      have := Option.some.inj h1
      omega
  · intro x p hx
    change put (swap s 1 s.size).index (s.heap 1) none x = some p at hx
    show 1 ≤ p ∧ p ≤ s.size - 1 ∧ put (swap s 1 s.size).heap s.size undef p = x
    by_cases e : x = s.heap 1
    · rw [e, put_eq] at hx; simp at hx
    · rw [put_ne _ _ e] at hx
      obtain ⟨a, b, d⟩ := hl1.item x p hx
      have b : p ≤ s.size := b
      have hne : p ≠ s.size := by
        intro e'
        rw [e', h3] at d
        exact e d.symm
      exact ⟨a, by omega, by rw [put_ne _ _ hne]; exact d⟩

theorem popHeap_linked (c : Cmp R) {s : State R} (hl : Linked s) (hs : s.size ≠ 0) :
    ∃ t, popHeap c s = (t, some (s.heap 1)) ∧ Linked t ∧ t.sizeMax = s.sizeMax ∧
      t.size + 1 = s.size ∧ t.keys = s.keys ∧
      ∀ j, (t.index j).isSome = if j = s.heap 1 then false else (s.index j).isSome := by
  obtain ⟨a, b⟩ := bubbleDown_linked c _ 1 (popped s) rfl (popped_linked hl hs) (Nat.le_refl _)
  have hb : (bubbleDown c (popped s) 1).size = s.size - 1 := b.size
  refine ⟨_, popHeap_eq c hl hs, a, b.sizeMax, by rw [hb]; omega, b.keys, ?_⟩
  intro j
  rw [b.present j]
  show (put (swap s 1 s.size).index (s.heap 1) none j).isSome = _
  have := (same_swap hl (Nat.le_refl 1) (by omega : 1 ≤ s.size) (by omega : 1 ≤ s.size)
    (Nat.le_refl _)).present j
  unfold put
  split
  · rfl
  · exact this

theorem popHeap_ordered {le : R → R → Prop} {c : Cmp R} (hc : Fits le c) {s : State R}
    (hl : Linked s) (ho : Ordered le s) (hs : s.size ≠ 0) : Ordered le (popHeap c s).1 := by
  rw [popHeap_eq c hl hs]
  have hat : ∀ p, 2 ≤ p → p ≤ s.size - 1 → (popped s).at p = s.at p := by
    intro p hp hp'
    unfold popped
    rw [wipe_at _ (by omega)]
    show (swap s 1 s.size).at p = _
    rw [swap_at, if_neg (by omega), if_neg (by omega)]
  apply bubbleDown_ordered hc _ 1 (popped s) rfl (popped_linked hl hs) (Nat.le_refl _)
  · intro p hp hp' hne
    have hp' : p ≤ s.size - 1 := hp'
    rw [hat p hp hp', hat (p / 2) (by omega) (by omega)]
    exact ho p hp (by omega)
  · intro p hp hp' hpe h2
    omega

/-! ### Change of a key -/

theorem rekey_linked {s : State R} (hl : Linked s) (i : Nat) (key : R) :
    Linked { s with keys := put s.keys i key } := ⟨hl.room, hl.slot, hl.item⟩

theorem rekey_at {s : State R} (hl : Linked s) {i p : Nat} (hp : s.index i = some p) (key : R)
    (q : Nat) (hq : 1 ≤ q) (hq' : q ≤ s.size) :
    State.at { s with keys := put s.keys i key } q = if q = p then key else s.at q := by
  show put s.keys i key (s.heap q) = _
  by_cases e : q = p
  · subst e
    rw [(hl.item i q hp).2.2, put_eq, if_pos rfl]
  · rw [if_neg e, put_ne]
    · rfl
    · intro e'
      have := (hl.slot q hq hq').1
      rw [e', hp] at this
      exact e (Option.some.inj this).symm

theorem decreaseKey_linked (c : Cmp R) {s : State R} (hl : Linked s) {i p : Nat}
    (hp : s.index i = some p) (key : R) : ∃ t, decreaseKey c s i key = some t ∧ Linked t ∧
      t.sizeMax = s.sizeMax ∧ t.size = s.size ∧ t.keys = put s.keys i key ∧
      ∀ j, (t.index j).isSome = (s.index j).isSome := by
  obtain ⟨a, b, d⟩ := hl.item i p hp
  have hi : i < s.sizeMax := by have := (hl.slot p a b).2; rw [d] at this; exact this
  obtain ⟨x, y⟩ := bubbleUp_linked c p _ (rekey_linked hl i key) a b
  refine ⟨_, by unfold decreaseKey; rw [if_pos hi, hp], x, y.sizeMax, y.size, y.keys, y.present⟩

theorem increaseKey_linked (c : Cmp R) {s : State R} (hl : Linked s) {i p : Nat}
    (hp : s.index i = some p) (key : R) : ∃ t, increaseKey c s i key = some t ∧ Linked t ∧
      t.sizeMax = s.sizeMax ∧ t.size = s.size ∧ t.keys = put s.keys i key ∧
      ∀ j, (t.index j).isSome = (s.index j).isSome := by
  obtain ⟨a, b, d⟩ := hl.item i p hp
  have hi : i < s.sizeMax := by have := (hl.slot p a b).2; rw [d] at this; exact this
  obtain ⟨x, y⟩ := bubbleDown_linked c _ p _ rfl (rekey_linked hl i key) a
  refine ⟨_, by unfold increaseKey; rw [if_pos hi, hp], x, y.sizeMax, y.size, y.keys, y.present⟩

theorem rekeyUp_ordered {le : R → R → Prop} {c : Cmp R} (hc : Fits le c) {s : State R}
    (hl : Linked s) (ho : Ordered le s) {i p : Nat} (hp : s.index i = some p) {key : R}
    (hle : le key (s.keys i)) :
    Ordered le (bubbleUp c { s with keys := put s.keys i key } p) := by
  obtain ⟨a, b, d⟩ := hl.item i p hp
  have hat := rekey_at hl hp key
  have hle : le key (s.at p) := by unfold State.at; rw [d]; exact hle
  apply bubbleUp_ordered hc p _ (rekey_linked hl i key) a b
  · intro q hq hq' hne
    have hq' : q ≤ s.size := hq'
    rw [hat q (by omega) hq', hat (q / 2) (by omega) (by omega), if_neg hne]
    split
    · rename_i e
      have := ho q hq hq'
      rw [e] at this
      exact hc.trans _ _ _ hle this
    · exact ho q hq hq'
  · intro q hq hq' hqe h2
    have hq' : q ≤ s.size := hq'
    rw [hat q (by omega) hq', hat (p / 2) (by omega) (by omega), if_neg (by omega),
      if_neg (by omega)]
    have h1 := ho q hq hq'
    rw [hqe] at h1
    exact hc.trans _ _ _ (ho p h2 b) h1

theorem rekeyDown_ordered {le : R → R → Prop} {c : Cmp R} (hc : Fits le c) {s : State R}
    (hl : Linked s) (ho : Ordered le s) {i p : Nat} (hp : s.index i = some p) {key : R}
    (hle : le (s.keys i) key) :
    Ordered le (bubbleDown c { s with keys := put s.keys i key } p) := by
  obtain ⟨a, b, d⟩ := hl.item i p hp
  have hat := rekey_at hl hp key
  have hle : le (s.at p) key := by unfold State.at; rw [d]; exact hle
  apply bubbleDown_ordered hc _ p _ rfl (rekey_linked hl i key) a
  · intro q hq hq' hne
    have hq' : q ≤ s.size := hq'
    rw [hat q (by omega) hq', hat (q / 2) (by omega) (by omega), if_neg hne]
    split
    · rename_i e
      have := ho q hq hq'
      subst e
      exact hc.trans _ _ _ this hle
    · exact ho q hq hq'
  · intro q hq hq' hqe h2
    have hq' : q ≤ s.size := hq'
    rw [hat q (by omega) hq', hat (p / 2) (by omega) (by omega), if_neg (by omega),
      if_neg (by omega)]
    have h1 := ho q hq hq'
    rw [hqe] at h1
    exact hc.trans _ _ _ (ho p h2 b) h1

theorem decreaseKey_ordered {le : R → R → Prop} {c : Cmp R} (hc : Fits le c) {s t : State R}
    (hl : Linked s) (ho : Ordered le s) {i p : Nat} (hp : s.index i = some p) {key : R}
    (hle : le key (s.keys i)) (ht : decreaseKey c s i key = some t) : Ordered le t := by
  obtain ⟨a, b, d⟩ := hl.item i p hp
  have hi : i < s.sizeMax := by have := (hl.slot p a b).2; rw [d] at this; exact this
  unfold decreaseKey at ht
  rw [if_pos hi, hp] at ht
  rw [← Option.some.inj ht]
  exact rekeyUp_ordered hc hl ho hp hle

theorem increaseKey_ordered {le : R → R → Prop} {c : Cmp R} (hc : Fits le c) {s t : State R}
    (hl : Linked s) (ho : Ordered le s) {i p : Nat} (hp : s.index i = some p) {key : R}
    (hle : le (s.keys i) key) (ht : increaseKey c s i key = some t) : Ordered le t := by
  obtain ⟨a, b, d⟩ := hl.item i p hp
  have hi : i < s.sizeMax := by have := (hl.slot p a b).2; rw [d] at this; exact this
  unfold increaseKey at ht
  rw [if_pos hi, hp] at ht
  rw [← Option.some.inj ht]
  exact rekeyDown_ordered hc hl ho hp hle

/-! ### Clear -/

theorem clearLoop_spec (c : Cmp R) (top : R) : ∀ n (s : State R), Linked s → s.size = n →
    Linked (clearLoop c top n s) ∧ (clearLoop c top n s).sizeMax = s.sizeMax ∧
    (clearLoop c top n s).size = 0 ∧
    ∀ j, (clearLoop c top n s).keys j = if (s.index j).isSome then top else s.keys j := by
  intro n
  induction n with
  | zero =>
    intro s hl hs
    refine ⟨hl, rfl, hs, ?_⟩
    intro j
    have : s.index j = none := by
      cases h : s.index j with
      | none => rfl
      | some p => have := hl.item j p h; omega
    simp [clearLoop, this]
  | succ n ih =>
    intro s hl hs
    obtain ⟨t, h1, h2, h3, h4, h5, h6⟩ := popHeap_linked c hl (by omega)
    have he : clearOne c top s = { t with keys := put t.keys (s.heap 1) top } := by
      unfold clearOne; rw [h1]
    have hl2 : Linked (clearOne c top s) := by rw [he]; exact rekey_linked h2 _ _
    obtain ⟨a, b, d, e⟩ := ih (clearOne c top s) hl2 (by rw [he]; show t.size = n; omega)
    refine ⟨a, ?_, d, ?_⟩
    · rw [clearLoop, b, he]; exact h3
    · intro j
      rw [clearLoop, e j, he]
      show (if (t.index j).isSome then top else put t.keys (s.heap 1) top j) = _
      rw [h6 j, h5]
      by_cases ej : j = s.heap 1
      · rw [if_pos ej, ej, put_eq, (hl.slot 1 (Nat.le_refl _) (by omega)).1]; simp
      · rw [if_neg ej, put_ne _ _ ej]

theorem clearCustom_spec (c : Cmp R) : ∀ n (s : State R), Linked s → s.size = n →
    Linked (clearCustom c n s) ∧ (clearCustom c n s).sizeMax = s.sizeMax ∧
    (clearCustom c n s).size = 0 ∧ (clearCustom c n s).keys = s.keys := by
  intro n
  induction n with
  | zero => intro s hl hs; exact ⟨hl, rfl, hs, rfl⟩
  | succ n ih =>
    intro s hl hs
    obtain ⟨t, h1, h2, h3, h4, h5, h6⟩ := popHeap_linked c hl (by omega)
    obtain ⟨a, b, d, e⟩ := ih t h2 (by omega)
    rw [clearCustom, h1]
    exact ⟨a, b.trans h3, d, e.trans h5⟩

theorem empty_of_size {s : State R} (hl : Linked s) (hs : s.size = 0) (i : Nat) :
    s.index i = none := by
  cases h : s.index i with
  | none => rfl
  | some p => have := hl.item i p h; omega

theorem clear_spec (c : Cmp R) (top : R) {s : State R} (hl : Linked s) :
    Linked (clear c top s) ∧ (clear c top s).sizeMax = s.sizeMax ∧ (clear c top s).size = 0 ∧
    ∀ j, (clear c top s).keys j = if (s.index j).isSome then top else s.keys j :=
  clearLoop_spec c top s.size s hl rfl

end Verif.Heap
