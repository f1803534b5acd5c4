import Verif.Containers.ArraySpec
import Mathlib.Tactic.SplitIfs

/-! # Lemmas for the dynamic array -/

namespace Verif.Containers

theorem growth_zero : growth 0 = 0 := by decide

private theorem or_ge (a b : BitVec 32) : a.toNat ≤ (a ||| b).toNat := by
  rw [BitVec.toNat_or]; exact Nat.left_le_or

private theorem or_shift_lt (a : BitVec 32) (k : Nat) (h : a.toNat < 2 ^ 31) :
    (a ||| (a >>> k)).toNat < 2 ^ 31 := by
  rw [BitVec.toNat_or, BitVec.toNat_ushiftRight, Nat.shiftRight_eq_div_pow]
  apply Nat.or_lt_two_pow h
  exact Nat.lt_of_le_of_lt (Nat.div_le_self _ _) h

/-- The capacity is at least the size. -/
theorem le_growth (n : Nat) (h : n ≤ maxLen) : n ≤ growth n := by
  unfold maxLen at h
  by_cases h0 : n = 0
  · subst h0; exact Nat.zero_le _
  · unfold growth growthBV
    have hv : (BitVec.ofNat 32 n - 1).toNat = n - 1 := by
      rw [BitVec.toNat_sub, BitVec.toNat_ofNat]
      simp; omega
    generalize BitVec.ofNat 32 n - 1 = v at hv
    have key : ∀ (a : BitVec 32), n - 1 ≤ a.toNat → a.toNat < 2 ^ 31 → ∀ k : Nat,
        n - 1 ≤ (a ||| (a >>> k)).toNat ∧ (a ||| (a >>> k)).toNat < 2 ^ 31 := by
      intro a h1 h2 k
      exact ⟨Nat.le_trans h1 (or_ge _ _), or_shift_lt _ _ h2⟩
    have k0 : n - 1 ≤ v.toNat ∧ v.toNat < 2 ^ 31 := by omega
    have k1 := key _ k0.1 k0.2 1
    have k2 := key _ k1.1 k1.2 2
    have k3 := key _ k2.1 k2.2 4
    have k4 := key _ k3.1 k3.2 8
    have k5 := key _ k4.1 k4.2 16
    rw [BitVec.toNat_add, show (1 : BitVec 32).toNat = 1 from rfl, Nat.mod_eq_of_lt (by omega)]
    omega

theorem growth_pos (n : Nat) (h : n ≤ maxLen) (h0 : 0 < n) : growth n ≠ growth 0 := by
  rw [growth_zero]; have := le_growth n h; omega

theorem moveCells_spec {α : Type} (b : Block α) (src n dst : Nat) (h1 : src + n ≤ b.length)
    (h2 : dst + n ≤ b.length) :
    ∃ b', moveCells b src n dst = some b' ∧ b'.length = b.length ∧
      ∀ k, b'[k]? = if dst ≤ k ∧ k < dst + n then b[k - dst + src]? else b[k]? := by
  refine ⟨_, if_pos ⟨h1, h2⟩, ?_, ?_⟩
  · simp; omega
  · intro k
    have e1 : (b.take dst).length = dst := by rw [List.length_take]; omega
    have e2 : ((b.drop src).take n).length = n := by
      rw [List.length_take, List.length_drop]; omega
    rw [List.append_assoc]
    by_cases c1 : k < dst
    · rw [List.getElem?_append_left (by omega), List.getElem?_take, if_pos c1, if_neg (by omega)]
    · rw [List.getElem?_append_right (by omega), e1]
      by_cases c2 : k < dst + n
      · rw [List.getElem?_append_left (by omega), List.getElem?_take, if_pos (by omega),
          List.getElem?_drop, if_pos (by omega), Nat.add_comm]
      · rw [List.getElem?_append_right (by omega), e2, List.getElem?_drop, if_neg (by omega)]
        congr 1; omega

theorem writeCells_spec {α : Type} (b : Block α) (dst : Nat) (xs : List α)
    (h : dst + xs.length ≤ b.length) :
    ∃ b', writeCells b dst xs = some b' ∧ b'.length = b.length ∧
      ∀ k, b'[k]? = if dst ≤ k ∧ k < dst + xs.length then some (xs[k - dst]?) else b[k]? := by
  refine ⟨_, if_pos h, ?_, ?_⟩
  · simp; omega
  · intro k
    have e1 : (b.take dst).length = dst := by rw [List.length_take]; omega
    have e2 : (xs.map some).length = xs.length := by simp
    rw [List.append_assoc]
    by_cases c1 : k < dst
    · rw [List.getElem?_append_left (by omega), List.getElem?_take, if_pos c1, if_neg (by omega)]
    · rw [List.getElem?_append_right (by omega), e1]
      by_cases c2 : k < dst + xs.length
      · rw [List.getElem?_append_left (by omega), List.getElem?_map, if_pos (by omega),
          List.getElem?_eq_getElem (show k - dst < xs.length by omega)]
        rfl
      · rw [List.getElem?_append_right (by omega), e2, List.getElem?_drop, if_neg (by omega)]
        congr 1; omega

/-- Representation relation between memory and a sequence. -/
def Rep {α : Type} (p : Option (Block α)) (size : Nat) (xs : List α) : Prop :=
  size = xs.length ∧ size ≤ maxLen ∧
  ((p = none ∧ size = 0) ∨
   ∃ b, p = some b ∧ b.length = growth size ∧ ∀ k, k < size → b[k]? = some (xs[k]?))

theorem realloc_spec {α : Type} {p : Option (Block α)} {size : Nat} {xs : List α}
    (R : Rep p size xs) (new : Nat) (hn : new ≤ maxLen) (h0 : p ≠ none ∨ 0 < new) :
    ∃ b, reallocArr p size new = some (some b) ∧ b.length = growth new ∧
      (∀ k, k < size → k < new → b[k]? = some (xs[k]?)) ∧
      (growth new = growth size → p = some b) := by
  obtain ⟨hs, hm, hp⟩ := R
  unfold reallocArr
  by_cases hg : growth new = growth size
  · rcases hp with ⟨rfl, rfl⟩ | ⟨b, rfl, hlen, hb⟩
    · have h0 : 0 < new := by simpa using h0
      exact absurd hg (growth_pos new hn h0)
    · refine ⟨b, by simp [hg], by rw [hlen, hg], fun k h1 _ => hb k h1, fun _ => rfl⟩
  · have hk : min size new ≤ (newBlock α (growth new)).length := by
      have := le_growth new hn
      simp [newBlock]; omega
    have hk2 : min size new ≤ (p.getD []).length := by
      rcases hp with ⟨rfl, rfl⟩ | ⟨b, rfl, hlen, hb⟩
      · simp
      · have := le_growth size hm
        simp [hlen]; omega
    have hgn := le_growth new hn
    refine ⟨(p.getD []).take (min size new) ++ (newBlock α (growth new)).drop (min size new),
      by simp only [ne_eq, hg, not_false_eq_true, if_true, hk, hk2, and_self], ?_, ?_,
      fun h => absurd h hg⟩
    · simp [newBlock] at hk ⊢; omega
    · intro k h1 h2
      rcases hp with ⟨rfl, rfl⟩ | ⟨b, rfl, hlen, hb⟩
      · omega
      · rw [List.getElem?_append_left (by simp at hk2 ⊢; omega), List.getElem?_take,
          if_pos (by omega)]
        exact hb k h1

theorem rep_holds {α : Type} {a : Arr α} {xs : List α} (R : Rep a.arr a.size xs) : Holds a xs := by
  obtain ⟨hs, hm, hp⟩ := R
  refine ⟨hs, fun k => ?_⟩
  unfold Arr.get
  split_ifs with hk
  · rcases hp with ⟨_, h⟩ | ⟨b, e, hlen, hb⟩
    · omega
    · simp [e, hb k hk]
  · rw [List.getElem?_eq_none (by omega)]

theorem rep_of_cells {α : Type} {b : Block α} {xs : List α} (hm : xs.length ≤ maxLen)
    (hl : b.length = growth xs.length) (h : ∀ k, k < xs.length → b[k]? = some (xs[k]?)) :
    Rep (some b) xs.length xs := ⟨rfl, hm, Or.inr ⟨b, rfl, hl, h⟩⟩

theorem rep_empty {α : Type} : Rep (none : Option (Block α)) 0 [] :=
  ⟨rfl, by simp, Or.inl ⟨rfl, rfl⟩⟩

end Verif.Containers
