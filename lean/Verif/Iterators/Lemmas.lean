import Verif.Iterators.Spec
import Mathlib.Tactic.SplitIfs

/-!
# Lemmas on iteration
-/

namespace Verif.Iterators

open Verif.Handles

/-- Position `i` is not skipped. -/
def vis (skip : Slot → Bool) (l : List Slot) (i : Nat) : Bool :=
  match l[i]? with
  | some s => !skip s
  | none => false

/-- Numbers from `n` on that are not skipped. -/
def fromN (skip : Slot → Bool) (l : List Slot) (n : Nat) : List Nat :=
  (List.range' n (l.length - n)).filter (vis skip l)

theorem fromN_ge (skip) (l : List Slot) (n : Nat) (h : l.length ≤ n) : fromN skip l n = [] := by
  simp [fromN, Nat.sub_eq_zero_of_le h]

theorem fromN_lt (skip) (l : List Slot) (n : Nat) (h : n < l.length) :
    fromN skip l n = if skip l[n] then fromN skip l (n + 1) else n :: fromN skip l (n + 1) := by
  have e : l.length - n = (l.length - (n + 1)) + 1 := by omega
  have hv : vis skip l n = !skip l[n] := by simp [vis, h]
  rw [fromN, e, List.range'_succ]
  cases hs : skip l[n]
  · rw [List.filter_cons_of_pos (by simp [hv, hs])]; simp [fromN]
  · rw [List.filter_cons_of_neg (by simp [hv, hs])]; simp [fromN]

theorem skipUp_spec (skip) (l : List Slot) (n : Nat) (hn : n ≤ l.length) :
    n ≤ skipUp skip l n ∧ skipUp skip l n ≤ l.length ∧
    fromN skip l n = if skipUp skip l n < l.length
      then skipUp skip l n :: fromN skip l (skipUp skip l n + 1) else [] := by
  generalize hd : l.length - n = d
  induction d generalizing n with
  | zero =>
    have : n = l.length := by omega
    subst this
    rw [skipUp]; simp [fromN_ge]
  | succ d ih =>
    have hlt : n < l.length := by omega
    rw [skipUp, dif_pos hlt, fromN_lt _ _ _ hlt]
    cases hs : skip l[n]
    · simp [hlt]; omega
    · simp only [if_true]
      have := ih (n + 1) (by omega) (by omega)
      refine ⟨by omega, this.2.1, this.2.2⟩

/-- The slots seen by the iterator: the mesh counts as one visible slot. -/
def eff (p : Pop) (q : Nat) : List Slot := if q = 5 then [.live false false] else p.links q

theorem last_eff (p : Pop) (q : Nat) : lastLocalIDNum p q = (eff p q).length := by
  unfold lastLocalIDNum eff; split <;> simp

theorem next_eff (p : Pop) (h5 : p.links 5 = []) (q : Nat) (n : Nat) (hn : n ≤ (eff p q).length) :
    nextLocalIDIter p q ((n : Int) - 1) = (skipUp skipSlot (eff p q) n : Nat) := by
  unfold nextLocalIDIter
  have e : ((n : Int) - 1 + 1).toNat = n := by omega
  rw [e]
  by_cases hq : q = 5
  · subst hq
    simp only [h5, eff, if_true] at hn ⊢
    simp only [List.length_singleton] at hn
    rcases Nat.lt_or_ge n 1 with h | h
    · have : n = 0 := by omega
      subst this
      have a : skipUp skipSlot [] 0 = 0 := by rw [skipUp]; simp
      have b : skipUp skipSlot [Slot.live false false] 0 = 0 := by rw [skipUp]; simp [skipSlot]
      rw [a, b]
    · have : n = 1 := by omega
      subst this
      have a : skipUp skipSlot [] 1 = 1 := by rw [skipUp]; simp
      have b : skipUp skipSlot [Slot.live false false] 1 = 1 := by rw [skipUp]; simp
      rw [a, b]
  · simp [eff, hq]

theorem vis_visible (l : List Slot) (i : Nat) : vis skipSlot l i = decide (Visible l i) := by
  rw [Bool.eq_iff_iff, decide_eq_true_iff]
  unfold vis Visible
  rcases h : l[i]? with _ | s
  · simp
  · cases s with
    | dead => simp [skipSlot]
    | live a b => cases a <;> simp [skipSlot]

theorem vis_alive (l : List Slot) (i : Nat) : vis deadSlot l i = decide (Alive l i) := by
  rw [Bool.eq_iff_iff, decide_eq_true_iff]
  unfold vis Alive
  rcases h : l[i]? with _ | s
  · simp
  · cases s with
    | dead => simp [deadSlot]
    | live a b => simp [deadSlot]

theorem visibleOf_eff (p : Pop) (q : Nat) : visibleOf p q = fromN skipSlot (eff p q) 0 := by
  unfold visibleOf eff
  split
  · simp [fromN, vis, skipSlot, List.range'_succ]
  · simp only [fromN, Nat.sub_zero, ← List.range_eq_range']
    congr 1
    funext i
    exact (vis_visible _ _).symm

/-- The list contributed by one type. -/
def typeList (p : Pop) (types : BitVec 8) (q : Nat) : List (Nat × Int) :=
  if types.getLsbD q then (fromN skipSlot (eff p q) 0).map (fun i : Nat => (q, (i : Int))) else []

theorem expected_eq (p : Pop) (types : BitVec 8) :
    expected p types = (List.range' 0 6).flatMap (typeList p types) := by
  unfold expected
  rw [List.range_eq_range']
  congr 1
  funext q
  rw [typeList, visibleOf_eff]

/-- What remains after position `n - 1` of type `q`. -/
def rest (p : Pop) (types : BitVec 8) (q n : Nat) : List (Nat × Int) :=
  (fromN skipSlot (eff p q) n).map (fun i : Nat => (q, (i : Int))) ++
    (List.range' (q + 1) (5 - q)).flatMap (typeList p types)

theorem bit_split (p : Pop) (types : BitVec 8) (a q : Nat) (hq : q < 6) (haq : a ≤ q)
    (hb : types.getLsbD q = true) (hz : ∀ i, a ≤ i → i < q → types.getLsbD i = false) :
    (List.range' a (6 - a)).flatMap (typeList p types) = rest p types q 0 := by
  have e : 6 - a = (q - a) + ((5 - q) + 1) := by omega
  rw [e, ← List.range'_append_1, List.flatMap_append]
  have h1 : (List.range' a (q - a)).flatMap (typeList p types) = [] := by
    rw [List.flatMap_eq_nil_iff]
    intro i hi
    rw [List.mem_range'_1] at hi
    simp [typeList, hz i (by omega) (by omega)]
  rw [h1, List.nil_append, List.range'_succ, List.flatMap_cons]
  have e2 : a + (q - a) = q := by omega
  rw [e2, rest]
  simp [typeList, hb]

theorem bit_none (p : Pop) (types : BitVec 8) (a : Nat)
    (hz : ∀ i, a ≤ i → i < 6 → types.getLsbD i = false) :
    (List.range' a (6 - a)).flatMap (typeList p types) = [] := by
  rw [List.flatMap_eq_nil_iff]
  intro i hi
  rw [List.mem_range'_1] at hi
  simp [typeList, hz i (by omega) (by omega)]

/-- The type with element number `q`. -/
def ty (q : Nat) : BitVec 8 := 1#8 <<< q

theorem num_ty : ∀ q : Fin 6, num (ty q) = q ∧ ty q ≠ NONE := by decide +kernel

theorem next_table : ∀ types : BitVec 8, ∀ q : Fin 6,
    (getNextType (ty q) types = NONE ∧ ∀ i : Fin 6, q < i → types.getLsbD i = false) ∨
    (∃ r : Fin 6, q < r ∧ getNextType (ty q) types = ty r ∧ types.getLsbD r = true ∧
      ∀ i : Fin 6, q < i → i < r → types.getLsbD i = false) := by
  decide +kernel

theorem first_table : ∀ types : BitVec 8,
    (firstType types = NONE ∧ ∀ i : Fin 6, types.getLsbD i = false) ∨
    (∃ r : Fin 6, firstType types = ty r ∧ types.getLsbD r = true ∧
      ∀ i : Fin 6, i < r → types.getLsbD i = false) := by
  decide +kernel

theorem incr_spec (p : Pop) (h5 : p.links 5 = []) (types : BitVec 8) (d : Nat) :
    ∀ (q n : Nat), q < 6 → n ≤ (eff p q).length → 6 - q ≤ d →
    (incr p types d ⟨ty q, (n : Int) - 1⟩ = some endIt ∧ rest p types q n = []) ∨
    (∃ q' n' : Nat, q' < 6 ∧ n' < (eff p q').length ∧
      incr p types d ⟨ty q, (n : Int) - 1⟩ = some ⟨ty q', n'⟩ ∧
      rest p types q n = (q', (n' : Int)) :: rest p types q' (n' + 1)) := by
  induction d with
  | zero => intro q n hq hn hd; omega
  | succ d ih =>
    intro q n hq hn hd
    have hnum := num_ty ⟨q, hq⟩
    simp only at hnum
    obtain ⟨hn1, hn2, hn3⟩ := skipUp_spec skipSlot (eff p q) n hn
    rw [incr]
    simp only [hnum.1, if_neg hnum.2, next_eff p h5 q n hn, last_eff]
    by_cases hl : skipUp skipSlot (eff p q) n < (eff p q).length
    · rw [if_pos hl] at hn3
      rw [if_neg (by omega)]
      refine Or.inr ⟨q, _, hq, hl, rfl, ?_⟩
      rw [rest, hn3]; simp [rest]
    · rw [if_neg hl] at hn3
      rw [if_pos (by omega)]
      rcases next_table types ⟨q, hq⟩ with ⟨h1, h2⟩ | ⟨r, h1, h2, h3, h4⟩
      · simp only at h1
        rw [if_pos h1]
        refine Or.inl ⟨rfl, ?_⟩
        rw [rest, hn3]
        have := bit_none p types (q + 1) (fun i hi hi6 => h2 ⟨i, hi6⟩ (by simp [Fin.lt_def]; omega))
        rw [show 6 - (q + 1) = 5 - q by omega] at this
        simp [this]
      · simp only at h2
        have hr : (q : Nat) < r := by simpa [Fin.lt_def] using h1
        rw [h2, if_neg (num_ty r).2]
        have hrest : rest p types q n = rest p types r 0 := by
          rw [rest, hn3]
          have := bit_split p types (q + 1) r r.2 (by omega) h3
            (fun i hi hir => h4 ⟨i, by omega⟩ (by simp [Fin.lt_def]; omega) (by simpa [Fin.lt_def] using hir))
          rw [show 6 - (q + 1) = 5 - q by omega] at this
          simp [this]
        rw [hrest]
        have := ih r 0 r.2 (Nat.zero_le _) (by omega)
        simpa using this

theorem loopUp_spec (p : Pop) (h5 : p.links 5 = []) (types : BitVec 8) :
    ∀ (k q n : Nat), q < 6 → n < (eff p q).length → (rest p types q (n + 1)).length = k →
    ∀ fuel, k + 2 ≤ fuel →
      loopUp p types fuel ⟨ty q, n⟩ = some ((q, (n : Int)) :: rest p types q (n + 1)) := by
  intro k
  induction k with
  | zero =>
    intro q n hq hn hk fuel hf
    have hnum := num_ty ⟨q, hq⟩
    simp only at hnum
    obtain ⟨f, rfl⟩ : ∃ f, fuel = f + 2 := ⟨fuel - 2, by omega⟩
    have hne : (⟨ty q, (n : Int)⟩ : It) ≠ endIt := by
      intro h; exact hnum.2 (congrArg It.etype h)
    have := incr_spec p h5 types 8 q (n + 1) hq hn (by omega)
    have e : ((n + 1 : Nat) : Int) - 1 = n := by omega
    rw [e] at this
    rcases this with ⟨h1, h2⟩ | ⟨q', n', _, _, _, h2⟩
    · rw [loopUp, if_neg hne, h1, h2]
      simp only [loopUp, if_true, hnum.1]
      rfl
    · rw [h2] at hk; simp at hk
  | succ k ih =>
    intro q n hq hn hk fuel hf
    have hnum := num_ty ⟨q, hq⟩
    simp only at hnum
    obtain ⟨f, rfl⟩ : ∃ f, fuel = f + 1 := ⟨fuel - 1, by omega⟩
    have hne : (⟨ty q, (n : Int)⟩ : It) ≠ endIt := by
      intro h; exact hnum.2 (congrArg It.etype h)
    have := incr_spec p h5 types 8 q (n + 1) hq hn (by omega)
    have e : ((n + 1 : Nat) : Int) - 1 = n := by omega
    rw [e] at this
    rcases this with ⟨h1, h2⟩ | ⟨q', n', h3, h4, h1, h2⟩
    · rw [h2] at hk; simp at hk
    · rw [h2] at hk ⊢
      simp only [List.length_cons, Nat.add_right_cancel_iff] at hk
      rw [loopUp, if_neg hne, h1]
      simp only [ih q' n' h3 h4 hk f (by omega), hnum.1]
      rfl

theorem forward_spec (p : Pop) (h5 : p.links 5 = []) (types : BitVec 8) (fuel : Nat)
    (hf : (expected p types).length + 1 ≤ fuel) :
    forward p types fuel = some (expected p types) := by
  obtain ⟨f, rfl⟩ : ∃ f, fuel = f + 1 := ⟨fuel - 1, by omega⟩
  rcases first_table types with ⟨h1, h2⟩ | ⟨r, h1, h2, h3⟩
  · have he : expected p types = [] := by
      rw [expected_eq]
      exact bit_none p types 0 (fun i _ hi => h2 ⟨i, hi⟩)
    rw [he, forward, begin, h1]
    rw [incr, if_pos rfl]
    show loopUp p types (f + 1) endIt = _
    rw [loopUp, if_pos rfl]
  · have he : expected p types = rest p types r 0 := by
      rw [expected_eq]
      exact bit_split p types 0 r r.2 (Nat.zero_le _) h2
        (fun i _ hi => h3 ⟨i, by omega⟩ (by simpa [Fin.lt_def] using hi))
    rw [he] at hf ⊢
    rw [forward, begin, h1]
    have := incr_spec p h5 types 8 r 0 r.2 (Nat.zero_le _) (by omega)
    have e : ((0 : Nat) : Int) - 1 = -1 := by omega
    rw [e] at this
    rcases this with ⟨h4, h5'⟩ | ⟨q', n', h6, h7, h8, h9⟩
    · rw [h4, h5']
      simp only
      rw [loopUp, if_pos rfl]
    · rw [h8, h9]
      simp only
      rw [h9] at hf
      exact loopUp_spec p h5 types _ q' n' h6 h7 rfl _ (by simpa using hf)

/-! ## Backwards -/

/-- Numbers below `n` that are not skipped. -/
def below (skip : Slot → Bool) (l : List Slot) (n : Nat) : List Nat :=
  (List.range n).filter (vis skip l)

theorem below_succ (skip) (l : List Slot) (n : Nat) :
    below skip l (n + 1) = below skip l n ++ (if vis skip l n then [n] else []) := by
  unfold below
  rw [List.range_succ, List.filter_append]
  cases h : vis skip l n <;> simp [h]

theorem skipDown_spec (l : List Slot) (h0 : vis skipSlot l 0 = true) (n : Nat) (hn : n < l.length) :
    skipDown skipSlot l n ≤ n ∧
    below skipSlot l (n + 1) =
      below skipSlot l (skipDown skipSlot l n) ++ [skipDown skipSlot l n] := by
  induction n with
  | zero => rw [below_succ, h0]; simp [skipDown]
  | succ n ih =>
    rw [below_succ, skipDown, List.getElem?_eq_getElem hn]
    have hv : vis skipSlot l (n + 1) = !skipSlot l[n + 1] := by simp [vis, hn]
    cases hs : skipSlot l[n + 1]
    · simp [hv, hs]
    · simp only [hv, hs, if_true, Bool.not_true]
      have := ih (by omega)
      refine ⟨by omega, ?_⟩
      rw [this.2]; simp

theorem prev_single : ∀ q : Fin 6, getPrevType (ty q) (ty q) = NONE ∧ lastType (ty q) = ty q := by
  decide +kernel

theorem decr_single (p : Pop) (q : Nat) (hq : q < 5)
    (h0 : vis skipSlot (p.links q) 0 = true) (n : Nat) (hn : n ≤ (p.links q).length) :
    (n = 0 ∧ decr p (ty q) 8 ⟨ty q, n⟩ = some endIt) ∨
    (∃ m, m < n ∧ decr p (ty q) 8 ⟨ty q, n⟩ = some ⟨ty q, (m : Nat)⟩ ∧
      below skipSlot (p.links q) n = below skipSlot (p.links q) m ++ [m]) := by
  have hnum := num_ty ⟨q, by omega⟩
  simp only at hnum
  have hp := prev_single ⟨q, by omega⟩
  simp only at hp
  rw [decr]
  simp only [hnum.1, if_neg hnum.2]
  rcases Nat.eq_zero_or_pos n with h | h
  · subst h
    left
    refine ⟨rfl, ?_⟩
    have : prevLocalIDIter p q ((0 : Nat) : Int) = -1 := by unfold prevLocalIDIter; simp
    rw [this, if_pos rfl, if_pos hp.1]
    rfl
  · right
    obtain ⟨k, rfl⟩ : ∃ k, n = k + 1 := ⟨n - 1, by omega⟩
    have hs := skipDown_spec (p.links q) h0 k (by omega)
    have : prevLocalIDIter p q ((k + 1 : Nat) : Int) = (skipDown skipSlot (p.links q) k : Nat) := by
      unfold prevLocalIDIter
      have e : ((k + 1 : Nat) : Int) - 1 = k := by omega
      rw [e]
      by_cases hk : (k : Int) > 0
      · rw [if_pos hk]; simp
      · have : k = 0 := by omega
        subst this
        simp [skipDown]
    rw [this, if_neg (by omega)]
    exact ⟨_, by omega, rfl, hs.2⟩

theorem loopDown_single (p : Pop) (q : Nat) (hq : q < 5)
    (h0 : vis skipSlot (p.links q) 0 = true) :
    ∀ (n fuel : Nat), n < (p.links q).length → n + 2 ≤ fuel →
      loopDown p (ty q) fuel ⟨ty q, n⟩ =
        some ((q, (n : Int)) ::
          ((below skipSlot (p.links q) n).map (fun i : Nat => (q, (i : Int)))).reverse) := by
  intro n
  induction n using Nat.strongRecOn with
  | _ n ih =>
    intro fuel hn hf
    have hnum := num_ty ⟨q, by omega⟩
    simp only at hnum
    obtain ⟨f, rfl⟩ : ∃ f, fuel = f + 2 := ⟨fuel - 2, by omega⟩
    have hne : (⟨ty q, (n : Int)⟩ : It) ≠ endIt := by
      intro h; exact hnum.2 (congrArg It.etype h)
    rcases decr_single p q hq h0 n (by omega) with ⟨h1, h2⟩ | ⟨m, hm, h2, h3⟩
    · subst h1
      rw [loopDown, if_neg hne, h2]
      simp [loopDown, hnum.1, below]
    · rw [loopDown, if_neg hne, h2, h3]
      simp only [ih m hm (f + 1) (by omega) (by omega), hnum.1]
      simp

end Verif.Iterators
