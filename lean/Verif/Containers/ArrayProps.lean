import Verif.Containers.ArrayLemmas

/-!
# C05: the dynamic array behaves as a sequence

`C05_array_history_partial` covers every operation; for the two operations that the source
implements incorrectly (`erase` of a range and shrinking `replace`) it covers the
arguments on which they are correct, and the `_fails` theorems give histories on which they
are not.
-/

namespace Verif.Containers

/-- Arguments for which range erase and replace are implemented correctly. -/
def ArrAllowed {α : Type} (xs : List α) : ArrOp α → Prop
  | .eraseRange d n => n = 1 ∨ d + n = xs.length
  | .replace d q ys => q ≤ ys.length ∨ d + q = xs.length ∨
      growth (xs.length + ys.length - q) = growth xs.length
  | _ => True

section steps
variable {α : Type} {a : Arr α} {xs : List α}

private theorem step_set (R : Rep a.arr a.size xs) (n : Nat) (x : α) (h : n < xs.length) :
    ∃ a', a.set n x = some a' ∧ Rep a'.arr a'.size (xs.set n x) := by
  obtain ⟨hs, hm, hp⟩ := R
  rcases hp with ⟨_, h0⟩ | ⟨b, e, hlen, hb⟩
  · omega
  · have hg := le_growth a.size hm
    obtain ⟨b', e', l', u'⟩ := writeCells_spec b n [x] (by simp; omega)
    refine ⟨⟨some b', a.size⟩, ?_, ?_⟩
    · unfold Arr.set; rw [if_pos (by omega), e]; simp [e']
    · have : a.size = (xs.set n x).length := by simpa using hs
      simp only [this]
      refine rep_of_cells (by omega) (by rw [l', hlen, this]) ?_
      intro k hk
      rw [u' k]
      simp only [List.length_set] at hk
      by_cases q : k = n
      · subst q
        rw [if_pos (by simp), List.getElem?_set_self hk]; simp
      · rw [if_neg (by simp; omega), List.getElem?_set_ne (Ne.symm q)]
        exact hb k (by omega)

private theorem step_push (R : Rep a.arr a.size xs) (x : α) (h : xs.length + 1 ≤ maxLen) :
    ∃ a', a.pushBack x = some a' ∧ Rep a'.arr a'.size (xs ++ [x]) := by
  have hs := R.1
  obtain ⟨b, e, hlen, hb, _⟩ := realloc_spec R (a.size + 1) (by omega) (Or.inr (by omega))
  have hg := le_growth (a.size + 1) (by omega)
  obtain ⟨b', e', l', u'⟩ := writeCells_spec b a.size [x] (by simp; omega)
  refine ⟨⟨some b', a.size + 1⟩, by simp [Arr.pushBack, e, e'], ?_⟩
  have hl : a.size + 1 = (xs ++ [x]).length := by simp; omega
  simp only [hl]
  refine rep_of_cells (by simp; omega) (by rw [l', hlen, hl]) ?_
  intro k hk
  rw [u' k]
  by_cases q : k = a.size
  · subst q
    rw [if_pos (by simp), hs]; simp
  · rw [if_neg (by simp; omega), List.getElem?_append_left (by omega)]
    exact hb k (by omega) (by omega)

private theorem step_pop (R : Rep a.arr a.size xs) (h : xs ≠ []) :
    ∃ a', a.popBack = some a' ∧ Rep a'.arr a'.size xs.dropLast := by
  have hs := R.1
  have hm := R.2.1
  have hne : 0 < xs.length := List.length_pos_iff.2 h
  have ha : a.arr ≠ none := by
    rcases R.2.2 with ⟨_, h0⟩ | ⟨b, e, _⟩
    · omega
    · simp [e]
  obtain ⟨b, e, hlen, hb, _⟩ := realloc_spec R (a.size - 1) (by omega) (Or.inl ha)
  obtain ⟨b0, hb0⟩ := Option.ne_none_iff_exists'.1 ha
  refine ⟨⟨some b, a.size - 1⟩, ?_, ?_⟩
  · have h1 : 0 < a.size := by omega
    simp only [Arr.popBack]
    rw [e]
    simp [hb0, h1]
  · have hl : a.size - 1 = xs.dropLast.length := by simp; omega
    simp only [hl]
    refine rep_of_cells (by simp; omega) (by rw [hlen, hl]) ?_
    intro k hk
    have hk' : k < xs.length - 1 := by simpa using hk
    rw [hb k (by omega) (by omega), List.getElem?_dropLast, if_pos hk']

private theorem step_resize (R : Rep a.arr a.size xs) (n : Nat) (c : α) (h : n ≤ maxLen) :
    ∃ a', a.resize n c = some a' ∧
      Rep a'.arr a'.size (xs.take n ++ List.replicate (n - xs.length) c) := by
  have hs := R.1
  by_cases hn : n > 0
  · obtain ⟨b, e, hlen, hb, _⟩ := realloc_spec R n h (Or.inr hn)
    have hl : n = (xs.take n ++ List.replicate (n - xs.length) c).length := by simp; omega
    have hg := le_growth n h
    by_cases hlt : a.size < n
    · obtain ⟨b', e', l', u'⟩ := writeCells_spec b a.size (List.replicate (n - a.size) c)
        (by simp; omega)
      refine ⟨⟨some b', n⟩, by simp [Arr.resize, hn, e, hlt, e'], ?_⟩
      have : Rep (some b') (xs.take n ++ List.replicate (n - xs.length) c).length
          (xs.take n ++ List.replicate (n - xs.length) c) := by
        refine rep_of_cells (by omega) (by rw [l', hlen, ← hl]) ?_
        intro k hk
        rw [← hl] at hk
        rw [u' k]
        have et : xs.take n = xs := List.take_of_length_le (by omega)
        rw [et]
        by_cases q : a.size ≤ k
        · rw [if_pos (by simp; omega), List.getElem?_append_right (by omega), hs]
        · rw [if_neg (by simp; omega), List.getElem?_append_left (by omega)]
          exact hb k (by omega) hk
      rw [← hl] at this; exact this
    · refine ⟨⟨some b, n⟩, by simp [Arr.resize, hn, e, hlt], ?_⟩
      have : Rep (some b) (xs.take n ++ List.replicate (n - xs.length) c).length
          (xs.take n ++ List.replicate (n - xs.length) c) := by
        refine rep_of_cells (by omega) (by rw [hlen, ← hl]) ?_
        intro k hk
        rw [← hl] at hk
        have et : n - xs.length = 0 := by omega
        rw [et, List.replicate_zero, List.append_nil, List.getElem?_take, if_pos hk]
        exact hb k (by omega) hk
      rw [← hl] at this; exact this
  · have : n = 0 := by omega
    subst this
    exact ⟨⟨none, 0⟩, by simp [Arr.resize, Arr.clear], by simpa using rep_empty⟩

private theorem step_erase (R : Rep a.arr a.size xs) (d : Nat) (h : d < xs.length) :
    ∃ a', a.erase d = some a' ∧ Rep a'.arr a'.size (xs.eraseIdx d) := by
  have hs := R.1
  have hm := R.2.1
  rcases R.2.2 with ⟨_, h0⟩ | ⟨b, e, hlen, hb⟩
  · omega
  have hg := le_growth a.size hm
  have hl : a.size - 1 = (xs.eraseIdx d).length := by rw [List.length_eraseIdx, if_pos h]; omega
  by_cases h1 : a.size - 1 > 0
  · obtain ⟨b1, e1, l1, u1⟩ : ∃ b1, moveIf b (d + 1) (a.size - 1 - d) d = some b1 ∧ b1.length = b.length ∧
        ∀ k, k < a.size - 1 → b1[k]? = some ((xs.eraseIdx d)[k]?) := by
      by_cases h2 : a.size - 1 - d ≠ 0
      · obtain ⟨b1, e1, l1, u1⟩ := moveCells_spec b (d + 1) (a.size - 1 - d) d (by omega) (by omega)
        refine ⟨b1, by rw [moveIf, if_pos h2, e1], l1, fun k hk => ?_⟩
        rw [u1 k, List.getElem?_eraseIdx]
        by_cases q : k < d
        · rw [if_neg (by omega), if_pos q]; exact hb k (by omega)
        · rw [if_pos (by omega), if_neg q, show k - d + (d + 1) = k + 1 by omega]
          exact hb (k + 1) (by omega)
      · refine ⟨b, by rw [moveIf, if_neg h2], rfl, fun k hk => ?_⟩
        rw [List.getElem?_eraseIdx, if_pos (by omega)]; exact hb k (by omega)
    have hre : ∃ b2, reallocArr (some b1) (a.size - 1 + 1) (a.size - 1) = some (some b2) ∧
        b2.length = growth (a.size - 1) ∧ ∀ k, k < a.size - 1 → b2[k]? = b1[k]? := by
      rw [show a.size - 1 + 1 = a.size by omega]
      unfold reallocArr
      by_cases q : growth (a.size - 1) = growth a.size
      · exact ⟨b1, by simp [q], by rw [q, l1, hlen], fun _ _ => rfl⟩
      · have hg1 := le_growth (a.size - 1) (by omega)
        have c1 : min a.size (a.size - 1) = a.size - 1 := by omega
        refine ⟨b1.take (a.size - 1) ++ (newBlock α (growth (a.size - 1))).drop (a.size - 1),
          ?_, ?_, ?_⟩
        · simp only [ne_eq, q, not_false_eq_true, if_true, c1, Option.getD_some]
          rw [if_pos]
          exact ⟨by omega, by simp [newBlock]; omega⟩
        · simp [newBlock]; omega
        · intro k hk
          rw [List.getElem?_append_left (by simp; omega), List.getElem?_take, if_pos hk]
    obtain ⟨b2, e2, l2, u2⟩ := hre
    refine ⟨⟨some b2, a.size - 1⟩, ?_, ?_⟩
    · have hd : d < a.size := by omega
      simp only [Arr.erase, if_pos hd, if_pos h1, e]
      simp only [Option.bind_eq_bind, Option.bind_some]
      rw [e1]; simp only [Option.bind_some]; rw [e2]; rfl
    · simp only [hl]
      refine rep_of_cells (by omega) (by rw [l2, hl]) ?_
      intro k hk
      rw [u2 k (by omega), u1 k (by omega)]
  · have hd : d < a.size := by omega
    refine ⟨⟨none, 0⟩, by simp [Arr.erase, if_pos hd, if_neg h1, e, Arr.clear], ?_⟩
    have : xs.eraseIdx d = [] := List.length_eq_zero_iff.1 (by omega)
    rw [this]; exact rep_empty

private theorem step_eraseRange (R : Rep a.arr a.size xs) (d n : Nat) (h : d + n ≤ xs.length)
    (hc : n = 1 ∨ d + n = xs.length) :
    ∃ a', a.eraseRange d n = some a' ∧ Rep a'.arr a'.size (xs.take d ++ xs.drop (d + n)) := by
  have hs := R.1
  have hm := R.2.1
  by_cases hn1 : n = 1
  · subst hn1
    obtain ⟨a', e, R'⟩ := step_erase R d (by omega)
    refine ⟨a', ?_, ?_⟩
    · rw [← e]
      unfold Arr.eraseRange Arr.erase
      rw [if_pos (show d + 1 ≤ a.size by omega), if_pos (show d < a.size by omega)]
      rcases R.2.2 with ⟨_, h0⟩ | ⟨b, eb, hlen, hb⟩
      · omega
      · have e1 : a.size - (d + 1) = a.size - 1 - d := by omega
        rw [e1]
        by_cases h1 : a.size - 1 > 0
        · simp [if_pos h1, eb]
        · simp [if_neg h1, eb]
    · rwa [← List.eraseIdx_eq_take_drop_succ]
  · have hdn : d + n = xs.length := hc.resolve_left hn1
    have hx : xs.take d ++ xs.drop (d + n) = xs.take d := by
      rw [List.drop_of_length_le (by omega), List.append_nil]
    rw [hx]
    by_cases h1 : a.size - n > 0
    · rcases R.2.2 with ⟨_, h0⟩ | ⟨b, e, hlen, hb⟩
      · omega
      have hs0 : ¬ (a.size - (d + n) ≠ 0) := by omega
      obtain ⟨b2, e2, l2, u2, _⟩ := realloc_spec R (a.size - n) (by omega) (Or.inr h1)
      rw [e] at e2
      refine ⟨⟨some b2, a.size - n⟩, ?_, ?_⟩
      · unfold Arr.eraseRange
        rw [if_pos (by omega), if_pos h1, e]
        simp only [Option.bind_eq_bind, Option.bind_some]
        rw [moveIf, if_neg hs0, show a.size - n + n = a.size by omega]
        simp only [Option.bind_some]
        rw [e2]; rfl
      · have hl : a.size - n = (xs.take d).length := by rw [List.length_take]; omega
        simp only [hl]
        refine rep_of_cells (by omega) (by rw [l2, hl]) ?_
        intro k hk
        rw [u2 k (by omega) (by omega), List.getElem?_take, if_pos (by omega)]
    · refine ⟨⟨none, 0⟩, ?_, ?_⟩
      · unfold Arr.eraseRange
        rw [if_pos (by omega), if_neg h1]; rfl
      · have : xs.take d = [] := by rw [show d = 0 by omega]; rfl
        rw [this]; exact rep_empty

private theorem shift_write {p : Option (Block α)} {size : Nat}
    (R : Rep p size xs) (hp : p ≠ none) (d q : Nat) (ys : List α)
    (hd : d + q ≤ size) (hmax : xs.length + ys.length - q ≤ maxLen)
    (hc : q ≤ ys.length ∨ d + q = size ∨ growth (size + ys.length - q) = growth size) :
    ∃ b1 b2 b3, reallocArr p size (size + ys.length - q) = some (some b1) ∧
      moveIf b1 (d + q) (size - (d + q)) (d + ys.length) = some b2 ∧
      writeCells b2 d ys = some b3 ∧
      Rep (some b3) (size + ys.length - q) (xs.take d ++ ys ++ xs.drop (d + q)) := by
  have hs := R.1
  have hm := R.2.1
  obtain ⟨b1, e1, l1, u1, v1⟩ := realloc_spec R (size + ys.length - q) (by omega) (Or.inl hp)
  have hg := le_growth (size + ys.length - q) (by omega)
  have hg0 := le_growth size hm
  -- cells of the tail survive the reallocation
  have tail : size - (d + q) ≠ 0 → ∀ k, k < size - (d + q) →
      b1[k + (d + q)]? = some (xs[k + (d + q)]?) ∧ size ≤ b1.length := by
    intro h2 k hk
    rcases hc with h | h | h
    · exact ⟨u1 _ (by omega) (by omega), by omega⟩
    · omega
    · have := v1 h
      rcases R.2.2 with ⟨h0, _⟩ | ⟨b, eb, hlen, hb⟩
      · exact absurd h0 hp
      · rw [this] at eb; cases eb
        exact ⟨hb _ (by omega), by omega⟩
  have headc : ∀ k, k < d → b1[k]? = some (xs[k]?) := by
    intro k hk; exact u1 k (by omega) (by omega)
  obtain ⟨b2, e2, l2, u2⟩ : ∃ b2, moveIf b1 (d + q) (size - (d + q)) (d + ys.length) = some b2 ∧
      b2.length = b1.length ∧ (∀ k, k < d → b2[k]? = some (xs[k]?)) ∧
      ∀ k, k < size - (d + q) → b2[k + (d + ys.length)]? = some (xs[k + (d + q)]?) := by
    by_cases h2 : size - (d + q) ≠ 0
    · have ht := (tail h2 0 (by omega)).2
      obtain ⟨b2, e2, l2, u2⟩ := moveCells_spec b1 (d + q) (size - (d + q)) (d + ys.length)
        (by omega) (by omega)
      refine ⟨b2, by rw [moveIf, if_pos h2, e2], l2, ?_, ?_⟩
      · intro k hk; rw [u2, if_neg (by omega)]; exact headc k hk
      · intro k hk
        rw [u2, if_pos (by omega), show k + (d + ys.length) - (d + ys.length) + (d + q) =
          k + (d + q) by omega]
        exact (tail h2 k hk).1
    · exact ⟨b1, by rw [moveIf, if_neg h2], rfl, headc, fun k hk => by omega⟩
  obtain ⟨b3, e3, l3, u3⟩ := writeCells_spec b2 d ys (by omega)
  refine ⟨b1, b2, b3, e1, e2, e3, ?_⟩
  have hl : size + ys.length - q = (xs.take d ++ ys ++ xs.drop (d + q)).length := by
    simp only [List.length_append, List.length_take, List.length_drop]; omega
  have : Rep (some b3) (xs.take d ++ ys ++ xs.drop (d + q)).length
      (xs.take d ++ ys ++ xs.drop (d + q)) := by
    refine rep_of_cells (by omega) (by rw [l3, l2, l1, hl]) ?_
    intro k hk
    have hlt : (xs.take d).length = d := by rw [List.length_take]; omega
    rw [u3 k, List.append_assoc]
    by_cases c1 : k < d
    · rw [if_neg (by omega), List.getElem?_append_left (by omega), List.getElem?_take, if_pos c1]
      exact u2.1 k c1
    · rw [List.getElem?_append_right (by omega), hlt]
      by_cases c2 : k < d + ys.length
      · rw [if_pos (by omega), List.getElem?_append_left (by omega)]
      · rw [if_neg (by omega), List.getElem?_append_right (by omega), List.getElem?_drop]
        have := u2.2 (k - (d + ys.length)) (by omega)
        rw [show k - (d + ys.length) + (d + ys.length) = k by omega] at this
        rw [this]; congr 2; omega
  rw [← hl] at this; exact this

private theorem write_fresh (ys : List α) (h : ys.length ≤ maxLen) :
    ∃ b, writeCells (allocArr α ys.length) 0 ys = some b ∧ Rep (some b) ys.length ys := by
  have hg := le_growth ys.length h
  obtain ⟨b, e, l, u⟩ := writeCells_spec (allocArr α ys.length) 0 ys
    (by simp [allocArr, newBlock]; omega)
  refine ⟨b, e, rep_of_cells h (by rw [l]; simp [allocArr, newBlock]) ?_⟩
  intro k hk
  rw [u k, if_pos (by omega)]; rfl

private theorem step_insertRange (R : Rep a.arr a.size xs) (d : Nat) (ys : List α)
    (h : d ≤ xs.length) (hm : xs.length + ys.length ≤ maxLen) :
    ∃ a', a.insertRange d ys = some a' ∧ Rep a'.arr a'.size (xs.take d ++ ys ++ xs.drop d) := by
  have hs := R.1
  unfold Arr.insertRange
  rw [if_pos (by omega)]
  by_cases hn : ys.length > 0
  · rw [if_pos hn]
    rcases e : a.arr with _ | b0
    · obtain ⟨b, eb, Rb⟩ := write_fresh ys (by omega)
      have h0 : a.size = 0 := by
        rcases R.2.2 with ⟨_, h0⟩ | ⟨b, eb, _⟩
        · exact h0
        · rw [e] at eb; cases eb
      have hx : xs = [] := List.length_eq_zero_iff.1 (by omega)
      subst hx
      refine ⟨⟨some b, ys.length⟩, by simp [eb], by simpa using Rb⟩
    · have ha : a.arr ≠ none := by simp [e]
      obtain ⟨b1, b2, b3, e1, e2, e3, R3⟩ := shift_write R ha d 0 ys (by omega) (by omega)
        (Or.inl (by omega))
      rw [e] at e1
      rw [Nat.add_zero, Nat.sub_zero] at *
      refine ⟨⟨some b3, a.size + ys.length⟩, ?_, R3⟩
      simp only [e1, Option.bind_eq_bind, Option.bind_some]
      rw [e2]; simp only [Option.bind_some]; rw [e3]; rfl
  · rw [if_neg hn]
    have : ys = [] := List.length_eq_zero_iff.1 (by omega)
    subst this
    exact ⟨a, rfl, by simpa using R⟩

private theorem step_insert (R : Rep a.arr a.size xs) (d : Nat) (x : α)
    (h : d ≤ xs.length) (hm : xs.length + 1 ≤ maxLen) :
    ∃ a', a.insert d x = some a' ∧ Rep a'.arr a'.size (xs.take d ++ x :: xs.drop d) := by
  obtain ⟨a', e, R'⟩ := step_insertRange R d [x] h (by simpa using hm)
  refine ⟨a', ?_, by simpa using R'⟩
  rw [← e]
  unfold Arr.insert Arr.insertRange
  split_ifs <;> first | rfl | (simp at *)

private theorem step_replace (R : Rep a.arr a.size xs) (d q : Nat) (ys : List α)
    (h : d + q ≤ xs.length) (hm : xs.length + ys.length - q ≤ maxLen)
    (hc : q ≤ ys.length ∨ d + q = xs.length ∨
      growth (xs.length + ys.length - q) = growth xs.length) :
    ∃ a', a.replace d q ys = some a' ∧
      Rep a'.arr a'.size (xs.take d ++ ys ++ xs.drop (d + q)) := by
  have hs := R.1
  unfold Arr.replace
  rw [if_pos (by omega)]
  rcases e : a.arr with _ | b0
  · have h0 : a.size = 0 := by
      rcases R.2.2 with ⟨_, h0⟩ | ⟨b, eb, _⟩
      · exact h0
      · rw [e] at eb; cases eb
    have hx : xs = [] := List.length_eq_zero_iff.1 (by omega)
    subst hx
    have hq : q = 0 := by simp at h; omega
    subst hq
    obtain ⟨b, eb, Rb⟩ := write_fresh ys (by simpa using hm)
    exact ⟨⟨some b, ys.length⟩, by simp [eb], by simpa using Rb⟩
  · have ha : a.arr ≠ none := by simp [e]
    obtain ⟨b1, b2, b3, e1, e2, e3, R3⟩ := shift_write R ha d q ys (by omega) hm
      (by rw [hs]; exact hc)
    by_cases hn : ys.length = q
    · -- no size change
      rcases R.2.2 with ⟨h0, _⟩ | ⟨b, eb, hlen, hb⟩
      · rw [e] at h0; cases h0
      rw [e] at eb; cases eb
      have hg := le_growth a.size R.2.1
      obtain ⟨b', e', l', u'⟩ := writeCells_spec b0 d ys (by omega)
      refine ⟨⟨some b', a.size⟩, by simp [hn, e'], ?_⟩
      have hl : a.size = (xs.take d ++ ys ++ xs.drop (d + q)).length := by
        simp only [List.length_append, List.length_take, List.length_drop]; omega
      have : Rep (some b') (xs.take d ++ ys ++ xs.drop (d + q)).length
          (xs.take d ++ ys ++ xs.drop (d + q)) := by
        refine rep_of_cells (by omega) (by rw [l', hlen, hl]) ?_
        intro k hk
        have hlt : (xs.take d).length = d := by rw [List.length_take]; omega
        rw [u' k, List.append_assoc]
        by_cases c1 : k < d
        · rw [if_neg (by omega), List.getElem?_append_left (by omega), List.getElem?_take,
            if_pos c1]
          exact hb k (by omega)
        · rw [List.getElem?_append_right (by omega), hlt]
          by_cases c2 : k < d + ys.length
          · rw [if_pos (by omega), List.getElem?_append_left (by omega)]
          · rw [if_neg (by omega), List.getElem?_append_right (by omega), List.getElem?_drop,
              hb k (by omega)]
            congr 2; omega
      rw [← hl] at this; exact this
    · rw [e] at e1
      refine ⟨⟨some b3, a.size + ys.length - q⟩, ?_, R3⟩
      simp only [ne_eq, hn, not_false_eq_true, if_true]
      simp only [e1, Option.bind_eq_bind, Option.bind_some]
      rw [e2]; simp only [Option.bind_some]; rw [e3]; rfl

end steps

/-- One operation. -/
theorem arr_step {α : Type} {a : Arr α} {xs : List α} (R : Rep a.arr a.size xs) (op : ArrOp α)
    (hl : Legal xs op) (ha : ArrAllowed xs op) (hm : (seqOp xs op).length ≤ maxLen) :
    ∃ a', op.exec a = some a' ∧ Rep a'.arr a'.size (seqOp xs op) := by
  cases op with
  | set n x => exact step_set R n x hl
  | pushBack x => exact step_push R x (by simpa [seqOp] using hm)
  | popBack => exact step_pop R hl
  | resize n c =>
    refine step_resize R n c ?_
    simp only [seqOp, List.length_append, List.length_take, List.length_replicate] at hm
    omega
  | clear => exact ⟨⟨none, 0⟩, rfl, rep_empty⟩
  | erase d => exact step_erase R d hl
  | eraseRange d n => exact step_eraseRange R d n hl ha
  | insert d x =>
    refine step_insert R d x hl ?_
    simp only [seqOp, List.length_append, List.length_take, List.length_cons,
      List.length_drop] at hm
    have : d ≤ xs.length := hl
    omega
  | insertRange d ys =>
    refine step_insertRange R d ys hl ?_
    simp only [seqOp, List.length_append, List.length_take, List.length_drop] at hm
    have : d ≤ xs.length := hl
    omega
  | replace d q ys =>
    refine step_replace R d q ys hl ?_ ha
    simp only [seqOp, List.length_append, List.length_take, List.length_drop] at hm
    have : d + q ≤ xs.length := hl
    omega
  | assign ys =>
    have hs := R.1
    obtain ⟨a', e, R'⟩ := step_replace R 0 a.size ys (by omega)
      (by simp [seqOp] at hm; omega) (Or.inr (Or.inl (by omega)))
    refine ⟨a', e, ?_⟩
    have : xs.take 0 ++ ys ++ xs.drop (0 + a.size) = ys := by
      rw [List.drop_of_length_le (by omega)]; simp
    rwa [this] at R'

/-- **C05** (histories).  Starting from an empty array, every legal history of operations runs
without leaving the allocated storage and the array then holds exactly the sequence that
results from the same operations on a mathematical sequence.  Missing compared to the full
property: range erase in the middle of more (or fewer) than one element and replace by a
shorter range before the end, for which the property is false (see below). -/
theorem C05_array_history_partial {α : Type} (ops : List (ArrOp α))
    (h : LegalHist ArrAllowed ([] : List α) ops) :
    ∃ a, runArr (Arr.empty α) ops = some a ∧ Holds a (ops.foldl seqOp []) := by
  suffices ∀ (ops : List (ArrOp α)) (a : Arr α) (xs : List α), Rep a.arr a.size xs →
      LegalHist ArrAllowed xs ops →
      ∃ a', runArr a ops = some a' ∧ Rep a'.arr a'.size (ops.foldl seqOp xs) by
    obtain ⟨a, e, R⟩ := this ops (Arr.empty α) [] rep_empty h
    exact ⟨a, e, rep_holds R⟩
  intro ops
  induction ops with
  | nil => intro a xs R _; exact ⟨a, rfl, R⟩
  | cons op ops ih =>
    intro a xs R hh
    obtain ⟨h1, h2, h3, h4⟩ := hh
    obtain ⟨a1, e1, R1⟩ := arr_step R op h1 h2 h3
    obtain ⟨a2, e2, R2⟩ := ih a1 _ R1 h4
    exact ⟨a2, by simp [runArr, e1, e2], R2⟩

/-- A non-trivial legal history: growth over several reallocations, insertion in the middle,
replacement by a longer range, erase and shrink. -/
def arrSample : List (ArrOp Nat) :=
  [.pushBack 1, .pushBack 2, .pushBack 3, .insertRange 1 [7, 8, 9], .erase 0,
   .replace 1 1 [4, 5, 6], .eraseRange 2 1, .resize 9 0, .resize 3 0, .set 1 11, .popBack,
   .insert 0 5, .eraseRange 1 2, .assign [1, 2, 3, 4, 5]]

example : LegalHist ArrAllowed ([] : List Nat) arrSample := by
  simp [LegalHist, ArrAllowed, arrSample, seqOp, Legal, maxLen]

/-- **C05** (constructors): an array constructed from a range, or filled, holds the sequence. -/
theorem C05_constructors {α : Type} (ys : List α) (h : ys.length ≤ maxLen) (n : Nat) (c : α)
    (hn : n ≤ maxLen) :
    (∃ a, Arr.mkRange ys = some a ∧ Holds a ys) ∧
    (∃ a, Arr.mkFill n c = some a ∧ Holds a (List.replicate n c)) := by
  constructor
  · obtain ⟨b, e, R⟩ := write_fresh ys h
    exact ⟨⟨some b, ys.length⟩, by simp [Arr.mkRange, e], rep_holds R⟩
  · obtain ⟨b, e, R⟩ := write_fresh (List.replicate n c) (by simpa using hn)
    rw [List.length_replicate] at e R
    exact ⟨⟨some b, n⟩, by simp [Arr.mkFill, e], rep_holds R⟩

/-- The full property of C05: every legal history (no exclusions). -/
def C05Full (α : Type) : Prop :=
  ∀ ops : List (ArrOp α), LegalHist (fun _ _ => True) ([] : List α) ops →
    ∃ a, runArr (Arr.empty α) ops = some a ∧ Holds a (ops.foldl seqOp [])

/-- **C05 fails** for range erase: erasing the first two of four elements leaves the second
and third instead of the third and fourth (container.hpp L366 copies from `d+1`). -/
theorem C05_eraseRange_fails : ¬ C05Full Nat := by
  intro h
  obtain ⟨a, e, hh⟩ := h [.assign [1, 2, 3, 4], .eraseRange 0 2]
    (by simp [LegalHist, seqOp, Legal, maxLen])
  have e' : runArr (Arr.empty Nat) [.assign [1, 2, 3, 4], .eraseRange 0 2] =
      some ⟨some [some 2, some 3], 2⟩ := by decide +kernel
  rw [e'] at e
  cases e
  have := hh.2 0
  revert this
  decide +kernel

/-- **C05 fails** for range erase of an empty range: `erase(b,b)` changes the contents, here it
exposes a cell that was never written. -/
theorem C05_eraseEmptyRange_fails :
    ∃ a, runArr (Arr.empty Nat) [.assign [1, 2, 3], .eraseRange 0 0] = some a ∧
      a.get 0 = some 2 ∧ a.get 2 = none := by
  refine ⟨⟨some [some 2, some 3, none, none], 3⟩, ?_, ?_, ?_⟩ <;> decide +kernel

/-- **C05 fails** for replace by a shorter range: the block is reallocated before the tail is
moved, and the tail is then read outside the new block (container.hpp L457-462). -/
theorem C05_replaceShrink_fails :
    LegalHist (fun _ _ => True) ([] : List Nat) [.assign [1, 2, 3, 4, 5], .replace 0 4 [9]] ∧
    runArr (Arr.empty Nat) [.assign [1, 2, 3, 4, 5], .replace 0 4 [9]] = none := by
  constructor
  · simp [LegalHist, seqOp, Legal, maxLen]
  · decide +kernel

/-- **C05 fails** for `push_back` of a reference to an element of the array itself: the
reference is read after the block was freed. -/
theorem C05_pushBackSelf_fails :
    ∃ a : Arr Nat, runArr (Arr.empty Nat) [.assign [1, 2]] = some a ∧ a.get 0 = some 1 ∧
      a.pushBackAlias 0 = none := by
  refine ⟨⟨some [some 1, some 2], 2⟩, ?_, ?_, ?_⟩ <;> decide +kernel

end Verif.Containers
