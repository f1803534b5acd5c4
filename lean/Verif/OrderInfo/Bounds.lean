import Verif.OrderInfo.Props

/-!
# Model of the preparation of intervals in `OrderInfo::PrepareMatrix`, Source/Solver/OrderInfo.cpp L135-176

The intervals of the processes are given in the order of their beginnings (the processes are renumbered at L96-133, which is not modelled).  Sizes of intervals are computed with unsigned
integers modulo `W`.
-/

namespace Verif.OrderInfo

/-- Subtraction of unsigned integers. -/
def usub (W a b : Nat) : Nat := (a + W - b) % W

/-- The loop L162-169 that moves the bounds of two neighbouring intervals `[b0,e0)` and `[b1,e1)`; the first argument is `e0 - b1`, it decreases by
one in each iteration.  Returns the new `e0` and `b1`. -/
def moveLoop (W : Nat) : Nat → Nat → Nat → Nat → Nat → Nat × Nat
  | 0, _, e0, b1, _ => (e0, b1)
  | n + 1, b0, e0, b1, e1 => if usub W e0 b0 < usub W e1 b1 then moveLoop W n b0 (e0 - 1) b1 e1 else moveLoop W n b0 e0 (b1 + 1) e1

/-- The loop over processes, L161-169, from the interval `i` on. -/
def moveFrom (W : Nat) : Nat × Nat → List (Nat × Nat) → List (Nat × Nat)
  | i, [] => [i]
  | i, j :: rest =>
    let r := moveLoop W (i.2 - j.1) i.1 i.2 j.1 j.2
    (i.1, r.1) :: moveFrom W (r.2, j.2) rest

/-- The loop over processes, L161-169.  (If all bounds agree nothing is moved, which is the test at L137-157.) -/
def moveAll (W : Nat) : List (Nat × Nat) → List (Nat × Nat)
  | [] => []
  | i :: rest => moveFrom W i rest

/-- `global_to_proc`, L175-176. -/
def toProc (l : List (Nat × Nat)) (k : Nat) : Nat := if k = 0 then 0 else ((l[k - 1]?).map (·.2)).getD 0

theorem moveLoop_spec (W n b0 e0 b1 e1 : Nat) (h : e0 = b1 + n) : ∃ m, moveLoop W n b0 e0 b1 e1 = (m, m) ∧ b1 ≤ m ∧ m ≤ e0 := by
  induction n generalizing e0 b1 with
  | zero => exact ⟨e0, by rw [moveLoop, h]; rfl, by omega, by omega⟩
  | succ n ih =>
    rw [moveLoop]
    split
    · obtain ⟨m, h1, h2, h3⟩ := ih (e0 - 1) b1 (by omega)
      exact ⟨m, h1, h2, by omega⟩
    · obtain ⟨m, h1, h2, h3⟩ := ih e0 (b1 + 1) (by omega)
      exact ⟨m, h1, by omega, h3⟩

/-- Neighbouring intervals overlap or touch, other intervals do not overlap. -/
def Neighbours : List (Nat × Nat) → Prop
  | [] => True
  | [i] => i.1 ≤ i.2
  | i :: j :: rest => i.1 ≤ j.1 ∧ j.1 ≤ i.2 ∧ i.2 ≤ j.2 ∧ (∀ k, rest.head? = some k → i.2 ≤ k.1) ∧ Neighbours (j :: rest)

theorem neighbours_head (i : Nat × Nat) (rest : List (Nat × Nat)) (h : Neighbours (i :: rest)) : i.1 ≤ i.2 := by
  cases rest with
  | nil => exact h
  | cons j rest => exact le_trans h.1 h.2.1

theorem neighbours_move (m e : Nat) (j : Nat × Nat) (rest : List (Nat × Nat)) (h : Neighbours (j :: rest)) (he : j.2 = e) (h2 : m ≤ e)
    (h3 : ∀ k, rest.head? = some k → m ≤ k.1) : Neighbours ((m, e) :: rest) := by
  subst he
  cases rest with
  | nil => exact h2
  | cons k rest => exact ⟨h3 k rfl, h.2⟩

theorem moveAll_spec (W : Nat) (l : List (Nat × Nat)) (h : Neighbours l) :
    (moveAll W l).length = l.length ∧
    (∀ (k : Nat) i i', l[k]? = some i → (moveAll W l)[k]? = some i' → i.1 ≤ i'.1 ∧ i'.1 ≤ i'.2 ∧ i'.2 ≤ i.2) ∧
    (∀ (k : Nat) i j, (moveAll W l)[k]? = some i → (moveAll W l)[k + 1]? = some j → i.2 = j.1) ∧
    ((moveAll W l).head?.map (·.1) = l.head?.map (·.1)) ∧ ((moveAll W l).getLast?.map (·.2) = l.getLast?.map (·.2)) := by
  induction hn : l.length generalizing l with
  | zero =>
    have : l = [] := List.length_eq_zero_iff.1 hn
    subst this
    simp [moveAll]
  | succ n ih =>
    match l, h with
    | [i], h =>
      refine ⟨hn, ?_, ?_, rfl, rfl⟩
      · intro k a a' h1 h2
        simp only [moveAll, moveFrom] at h2
        rw [h1] at h2
        injection h2 with h2
        subst h2
        have := List.mem_of_getElem? h1
        simp at this
        subst this
        exact ⟨le_refl _, h, le_refl _⟩
      · intro k a b h1 h2
        simp [moveAll, moveFrom] at h2
    | i :: j :: rest, h =>
      obtain ⟨h1, h2, h3, h4, h5⟩ := h
      obtain ⟨m, hm, hm1, hm2⟩ := moveLoop_spec W (i.2 - j.1) i.1 i.2 j.1 j.2 (by omega)
      have hNb : Neighbours ((m, j.2) :: rest) := neighbours_move m j.2 j rest h5 rfl (by omega) (fun k hk => le_trans hm2 (h4 k hk))
      obtain ⟨i1, i2, i3, i4, i5⟩ := ih ((m, j.2) :: rest) hNb (by simp at hn ⊢; omega)
      have hmove : moveAll W (i :: j :: rest) = (i.1, m) :: moveAll W ((m, j.2) :: rest) := by
        simp only [moveAll, moveFrom, hm]
      rw [hmove]
      refine ⟨by simpa using i1, ?_, ?_, rfl, ?_⟩
      · intro k a a' ha ha'
        cases k with
        | zero =>
          simp only [List.getElem?_cons_zero, Option.some.injEq] at ha ha'
          subst ha ha'
          exact ⟨le_refl _, by simp; omega, hm2⟩
        | succ k =>
          simp only [List.getElem?_cons_succ] at ha ha'
          cases k with
          | zero =>
            simp only [List.getElem?_cons_zero, Option.some.injEq] at ha
            subst ha
            have := i2 0 (m, j.2) a' rfl ha'
            exact ⟨le_trans hm1 this.1, this.2⟩
          | succ k =>
            simp only [List.getElem?_cons_succ] at ha
            exact i2 (k + 1) a a' (by simpa using ha) ha'
      · intro k a b ha hb
        cases k with
        | zero =>
          simp only [List.getElem?_cons_zero, Option.some.injEq, List.getElem?_cons_succ] at ha hb
          subst ha
          have : (moveAll W ((m, j.2) :: rest)).head? = some b := by rw [List.head?_eq_getElem?]; exact hb
          rw [this] at i4
          simp at i4
          exact i4.symm
        | succ k =>
          simp only [List.getElem?_cons_succ] at ha hb
          exact i3 k a b ha hb
      · have hne : moveAll W ((m, j.2) :: rest) ≠ [] := by
          intro h0; rw [h0] at i1; simp at i1 hn; omega
        rw [List.getLast?_cons_of_ne_nil hne, i5]
        cases rest <;> simp

/-- C53: intervals given in the order of their beginnings, which cover all rows and in which only neighbours overlap, are made disjoint: each new interval is a part of the old one,
ends where the next one begins, and together they cover the same rows. -/
theorem C53_bounds_partial (W : Nat) (l : List (Nat × Nat)) (hpos : ∀ i ∈ l, i.1 ≤ i.2)
    (hnext : ∀ (k : Nat) i j, l[k]? = some i → l[k + 1]? = some j → i.1 ≤ j.1 ∧ j.1 ≤ i.2 ∧ i.2 ≤ j.2)
    (hfar : ∀ (k : Nat) i j, l[k]? = some i → l[k + 2]? = some j → i.2 ≤ j.1) :
    (moveAll W l).length = l.length ∧
    (∀ (k : Nat) i i', l[k]? = some i → (moveAll W l)[k]? = some i' → i.1 ≤ i'.1 ∧ i'.1 ≤ i'.2 ∧ i'.2 ≤ i.2) ∧
    (∀ (k : Nat) i j, (moveAll W l)[k]? = some i → (moveAll W l)[k + 1]? = some j → i.2 = j.1) ∧
    ((moveAll W l).head?.map (·.1) = l.head?.map (·.1)) ∧ ((moveAll W l).getLast?.map (·.2) = l.getLast?.map (·.2)) := by
  apply moveAll_spec
  induction l with
  | nil => trivial
  | cons i l ih =>
    cases l with
    | nil => exact hpos i (by simp)
    | cons j rest =>
      obtain ⟨a1, a2, a3⟩ := hnext 0 i j rfl rfl
      refine ⟨a1, a2, a3, ?_, ih (fun a ha => hpos a (by simp [ha])) (fun k a b ha hb => hnext (k + 1) a b ha hb) (fun k a b ha hb => hfar (k + 1) a b ha hb)⟩
      intro k hk
      cases rest with
      | nil => cases hk
      | cons k' rest =>
        injection hk with hk
        subst hk
        exact hfar 0 i k' rfl rfl

/-- The middle interval may become empty. -/
example : moveAll (2 ^ 32) [(0, 4), (2, 6), (4, 10)] = [(0, 4), (4, 4), (4, 10)] := by decide

/-- C53, what fails: three intervals that overlap at the same rows. The second process gets the interval from 10 to 9, so the intervals are not a partition. -/
theorem C53_three_fails : moveAll (2 ^ 32) [(0, 10), (1, 10), (2, 12)] = [(0, 10), (10, 9), (9, 12)] := by decide

/-- C53, what fails: an interval inside another one. -/
theorem C53_nested_fails : moveAll (2 ^ 32) [(0, 10), (2, 4), (4, 12)] = [(0, 5), (5, 4), (4, 12)] := by decide

/-! ### C45 with overlapping intervals -/

/-- Row 0 refers to row 3. -/
def matOv (k : Nat) : Row Nat := if k = 0 then [(0, 1), (3, 7)] else [(k, 1)]

/-- C45, what fails: two processes with the rows `[0,2)` and `[1,4)`. The bound of the first process is moved to 1, the column 3 gets the local number 1; the
restoration expects local numbers from 2 on. -/
theorem C45_overlapping_fails :
    let l := moveAll (2 ^ 32) [(0, 2), (1, 4)]
    Intervals 2 (toProc l) ∧ Square (toProc l 2) matOv ∧
    ∃ S : Nat → PSt Nat, Prepare 2 (toProc l) matOv 0 S ∧ restoreRow (S 0) 2 ((S 0).rows 0) ≠ matOv 0 := by
  intro l
  have hI : Intervals 2 (toProc l) := ⟨by decide, by decide, by decide⟩
  have hsq : Square (toProc l 2) matOv := by
    have : toProc l 2 = 4 := by decide
    rw [this]
    unfold Square
    decide
  refine ⟨hI, hsq, ?_⟩
  refine ⟨fun p => finishLast (toProc l p) (toProc l (p + 1)) (start (toProc l) matOv p) (if p = 0 then [(1, [3])] else []) (if p = 1 then [(0, [3])] else []),
    ⟨fun p => if p = 0 then [(1, [3])] else [], fun p => if p = 1 then [(0, [3])] else [], ?_, ?_, ?_⟩, ?_⟩
  · decide +kernel
  · intro p hp
    have : p = 0 ∨ p = 1 := by omega
    rcases this with rfl | rfl <;> decide
  · intro p _; simp
  · decide +kernel

end Verif.OrderInfo
