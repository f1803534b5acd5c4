import Verif.Sort.Lemmas

/-!
# Sorting of handles: properties C20 and C21
-/

namespace Verif.Sort

/-- Handles of elements: not `InvalidHandle()`, and not `ENUMUNDEF`, which no element has
(C01). -/
def ElementHandles (w : Nat) (a : List Nat) : Prop := ∀ x ∈ a, 0 < x ∧ x < 256 ^ w - 1

theorem stdSort_exists {le : Nat → Nat → Bool} {less : Nat → Nat → Prop} (a : List Nat)
    (h : ∀ x y, le x y = true → ¬ less y x) (htr : ∀ x y z, le x y = true → le y z = true →
      le x z = true) (htot : ∀ x y, (le x y || le y x) = true) : ∃ b, StdSort less a b :=
  ⟨a.mergeSort le, List.mergeSort_perm a le,
    (List.pairwise_mergeSort htr htot a).imp fun {x y} hxy => h x y hxy⟩

/-- What the radix branch of `SortHandles` does, invalid handles included. -/
theorem radixHandles_spec (w : Nat) (hw : 0 < w) (a : List Nat) (hlen : a.length < 2 ^ 32)
    (ha : ∀ x ∈ a, x < 256 ^ w - 1) :
    ∃ b, radixHandles w a = some b ∧ b.Perm a ∧
      b.Pairwise fun x y => y = 0 ∨ (x ≠ 0 ∧ x ≤ y) := by
  have hpos : 1 < 256 ^ w := Nat.one_lt_pow (by omega) (by decide)
  obtain ⟨r, h1, h2, h3⟩ := radix_spec id w (a.map fun x => if x = 0 then enumUndef w else x)
    (by simpa using hlen) (by
      intro y hy
      obtain ⟨x, hx, rfl⟩ := List.mem_map.1 hy
      have := ha x hx
      simp only [id, enumUndef]; split <;> omega)
  refine ⟨_, by rw [radixHandles, h1], ?_, ?_⟩
  · have := h2.map fun x => if x = enumUndef w then 0 else x
    refine this.trans (List.Perm.of_eq ?_)
    rw [List.map_map]
    conv => rhs; rw [← List.map_id a]
    apply List.map_congr_left
    intro x hx
    have := ha x hx
    simp only [Function.comp, id, enumUndef]
    by_cases h : x = 0
    · simp [h]
    · simp [h]; omega
  · rw [List.pairwise_map]
    refine h3.imp_of_mem fun {x y} hx hy hxy => ?_
    obtain ⟨x', hx', rfl⟩ := List.mem_map.1 (h2.subset hx)
    obtain ⟨y', hy', rfl⟩ := List.mem_map.1 (h2.subset hy)
    have h4 := ha x' hx'
    have h5 := ha y' hy'
    simp only [id, enumUndef] at *
    by_cases hx0 : x' = 0
    · by_cases hy0 : y' = 0
      · simp [hy0]
      · simp [hx0, hy0] at hxy; omega
    · by_cases hy0 : y' = 0
      · simp [hy0]
      · have g1 : ¬ x' = 256 ^ w - 1 := by omega
        have g2 : ¬ y' = 256 ^ w - 1 := by omega
        simp only [hx0, hy0, g1, g2, if_false] at hxy ⊢
        exact .inr ⟨hx0, hxy⟩

/-- `SortHandles` returns, and whatever it returns is the same handles in ascending order:
for handles of 4 and of 8 bytes and for every length, by either branch. -/
theorem C20_sort_handles (w : Nat) (hw : w = 4 ∨ w = 8) (a : List Nat) (hlen : a.length < 2 ^ 32)
    (ha : ElementHandles w a) :
    (∃ b, SortHandles w a b) ∧
    ∀ b, SortHandles w a b → b.Perm a ∧ b.Pairwise fun x y => x ≤ y := by
  obtain ⟨r, h1, h2, h3⟩ := radixHandles_spec w (by omega) a hlen fun x hx => (ha x hx).2
  rw [show (∃ b, SortHandles w a b) = ∃ b, (if 8 * w < a.length then radixHandles w a = some b
    else StdSort (· < ·) a b) from rfl]
  by_cases hl : 8 * w < a.length
  · refine ⟨⟨r, by rw [if_pos hl]; exact h1⟩, fun b hb => ?_⟩
    rw [SortHandles, if_pos hl, h1] at hb
    cases hb
    refine ⟨h2, h3.imp_of_mem fun {x y} hx hy h => ?_⟩
    rcases h with h | h
    · exact absurd h (Nat.pos_iff_ne_zero.1 (ha y (h2.subset hy)).1)
    · exact h.2
  · refine ⟨?_, fun b hb => ?_⟩
    · obtain ⟨b, hb⟩ := stdSort_exists (le := fun x y => decide (x ≤ y)) (less := (· < ·)) a
        (by intro x y h; simp at h; omega) (by intro x y z h1 h2; simp at *; omega)
        (by intro x y; simp; omega)
      exact ⟨b, by rw [if_neg hl]; exact hb⟩
    · rw [SortHandles, if_neg hl] at hb
      exact ⟨hb.1, hb.2.imp fun h => by simp only at h; omega⟩

/-- 40 handles in descending order: the radix branch. -/
example : ElementHandles 4 ((List.range 40).map fun i => 4000 - 100 * i) ∧
    radixHandles 4 ((List.range 40).map fun i => 4000 - 100 * i) =
      some ((List.range 40).map fun i => 100 + 100 * i) := by
  constructor
  · intro x hx
    obtain ⟨i, hi, rfl⟩ := List.mem_map.1 hx
    rw [List.mem_range] at hi
    omega
  · decide +kernel

/-- Arrays with invalid handles (such as the holes of an element set): the radix branch moves
them behind, the other branch in front of the valid ones.  `SortSet` relies on the former for
arrays of every length. -/
theorem C20_invalid_handles (w : Nat) (hw : w = 4 ∨ w = 8) (a b : List Nat)
    (hlen : a.length < 2 ^ 32) (ha : ∀ x ∈ a, x < 256 ^ w - 1) (hb : SortHandles w a b) :
    b.Perm a ∧
    (8 * w < a.length → b.Pairwise fun x y => y = 0 ∨ (x ≠ 0 ∧ x ≤ y)) ∧
    (a.length ≤ 8 * w → b.Pairwise fun x y => x ≤ y) := by
  obtain ⟨r, h1, h2, h3⟩ := radixHandles_spec w (by omega) a hlen ha
  rw [SortHandles] at hb
  by_cases hl : 8 * w < a.length
  · rw [if_pos hl, h1] at hb
    cases hb
    exact ⟨h2, fun _ => h3, fun h => by omega⟩
  · rw [if_neg hl] at hb
    exact ⟨hb.1, fun h => absurd h hl, fun _ => hb.2.imp fun h => by simp only at h; omega⟩

example : radixHandles 4 (0 :: List.replicate 40 7) = some (List.replicate 40 7 ++ [0]) ∧
    SortHandles 4 [7, 0] [0, 7] := by
  refine ⟨by decide +kernel, ?_⟩
  rw [SortHandles, if_neg (by decide)]
  exact ⟨List.Perm.swap _ _ _, by simp⟩

/-- A number of `w` bytes. -/
def InRange (w : Nat) (z : Int) : Prop := -(128 * 256 ^ (w - 1)) ≤ z ∧ z < 128 * 256 ^ (w - 1)

theorem gidBits_lt (w : Nat) (gid : Nat → Int) (x : Nat) : gidBits w gid x < 256 ^ w := by
  have h1 : (0 : Int) < 256 ^ w := Int.pow_pos (by decide)
  have h2 := Int.emod_lt_of_pos (gid x) h1
  have h3 := Int.emod_nonneg (gid x) (Int.ne_of_gt h1)
  rw [gidBits]
  have h4 : ((256 ^ w : Nat) : Int) = 256 ^ w := by simp
  omega

theorem gidBits_eq {w : Nat} (hw : 0 < w) {gid : Nat → Int} {x : Nat} (h : InRange w (gid x)) :
    (gidBits w gid x : Int) = if gid x < 0 then gid x + 256 ^ w else gid x := by
  have hp : (256 : Int) ^ w = 256 ^ (w - 1) * 256 := by
    rw [← Int.pow_succ]; congr 1; omega
  have h1 : (0 : Int) < 256 ^ (w - 1) := Int.pow_pos (by decide)
  have hne : (256 : Int) ^ w ≠ 0 := by rw [hp]; omega
  rw [gidBits, Int.toNat_of_nonneg (Int.emod_nonneg _ hne)]
  obtain ⟨g1, g2⟩ := h
  split
  · rw [← Int.add_emod_right, Int.emod_eq_of_lt (by omega) (by omega)]
  · rw [Int.emod_eq_of_lt (by omega) (by omega)]

theorem gid_stdSort_exists (gid : Nat → Int) (a : List Nat) : ∃ b, StdSort (globalIDLess gid) a b := by
  apply stdSort_exists (le := fun x y => decide (y = 0) || (decide (x ≠ 0) && decide (gid x ≤ gid y)))
  · intro x y h
    simp only [globalIDLess, Bool.or_eq_true, Bool.and_eq_true, decide_eq_true_eq] at *
    split <;> omega
  · intro x y z h1 h2
    simp only [Bool.or_eq_true, Bool.and_eq_true, decide_eq_true_eq] at *
    omega
  · intro x y
    simp only [Bool.or_eq_true, Bool.and_eq_true, decide_eq_true_eq] at *
    omega

/-- `SortByGlobalID` sorts by the global ID, for every length, if no global ID is negative.
Missing from C21: negative global IDs in long arrays, see `C21_fails`. -/
theorem C21_partial (w : Nat) (hw : w = 4 ∨ w = 8) (gid : Nat → Int) (a : List Nat)
    (hlen : a.length < 2 ^ 32) (ha : ∀ x ∈ a, x ≠ 0)
    (hg : ∀ x ∈ a, InRange w (gid x) ∧ (16 * w < a.length → 0 ≤ gid x)) :
    (∃ b, SortByGlobalID w gid a b) ∧
    ∀ b, SortByGlobalID w gid a b → b.Perm a ∧ b.Pairwise fun x y => gid x ≤ gid y := by
  obtain ⟨r, h1, h2, h3⟩ := radix_spec (gidBits w gid) w a hlen fun x _ => gidBits_lt w gid x
  rw [show (∃ b, SortByGlobalID w gid a b) = ∃ b, (if 16 * w < a.length then
      (∀ x ∈ a, x ≠ 0) ∧ radix (gidBits w gid) w a = some b
      else StdSort (globalIDLess gid) a b) from rfl]
  by_cases hl : 16 * w < a.length
  · refine ⟨⟨r, by rw [if_pos hl]; exact ⟨ha, h1⟩⟩, fun b hb => ?_⟩
    rw [SortByGlobalID, if_pos hl, h1] at hb
    cases hb.2
    refine ⟨h2, h3.imp_of_mem fun {x y} hx hy h => ?_⟩
    have gx := hg x (h2.subset hx)
    have gy := hg y (h2.subset hy)
    have ex := gidBits_eq (by omega) gx.1
    have ey := gidBits_eq (by omega) gy.1
    have := gx.2 hl
    have := gy.2 hl
    rw [if_neg (by omega)] at ex ey
    omega
  · refine ⟨?_, fun b hb => ?_⟩
    · obtain ⟨b, hb⟩ := gid_stdSort_exists gid a
      exact ⟨b, by rw [if_neg hl]; exact hb⟩
    · rw [SortByGlobalID, if_neg hl] at hb
      refine ⟨hb.1, hb.2.imp_of_mem fun {x y} hx hy h => ?_⟩
      have gx := ha x (hb.1.subset hx)
      have gy := ha y (hb.1.subset hy)
      simp only [globalIDLess, gx, gy, or_self, if_false] at h
      omega

example : let a := (List.range 70).map fun i => 1 + i
    (∀ x ∈ a, x ≠ 0) ∧ radix (gidBits 4 fun x => 1000 - 3 * (x : Int)) 4 a = some a.reverse := by
  decide +kernel

/-- In a long array with negative and other global IDs every element with a negative ID ends
up behind every other element: the result is not in the order of the global IDs. -/
theorem C21_fails (w : Nat) (hw : w = 4 ∨ w = 8) (gid : Nat → Int) (a : List Nat)
    (hlen : a.length < 2 ^ 32) (ha : ∀ x ∈ a, x ≠ 0) (hg : ∀ x ∈ a, InRange w (gid x))
    (hl : 16 * w < a.length) (p q : Nat) (hp : p ∈ a) (hq : q ∈ a) (hpn : gid p < 0)
    (hqn : 0 ≤ gid q) :
    ∃ b, SortByGlobalID w gid a b ∧ (∀ b', SortByGlobalID w gid a b' → b' = b) ∧
      (b.Pairwise fun x y => gid y < 0 ∨ 0 ≤ gid x) ∧
      ¬ b.Pairwise fun x y => gid x ≤ gid y := by
  obtain ⟨r, h1, h2, h3⟩ := radix_spec (gidBits w gid) w a hlen fun x _ => gidBits_lt w gid x
  have hpw : (256 : Int) ^ w = 256 ^ (w - 1) * 256 := by
    rw [← Int.pow_succ]; congr 1; omega
  have hpos : (0 : Int) < 256 ^ (w - 1) := Int.pow_pos (by decide)
  have key : r.Pairwise fun x y => gid y < 0 ∨ 0 ≤ gid x := by
    refine h3.imp_of_mem fun {x y} hx hy h => ?_
    have gx := hg x (h2.subset hx)
    have gy := hg y (h2.subset hy)
    have ex := gidBits_eq (by omega) gx
    have ey := gidBits_eq (by omega) gy
    obtain ⟨x1, x2⟩ := gx
    obtain ⟨y1, y2⟩ := gy
    by_cases c1 : gid x < 0
    · by_cases c2 : gid y < 0
      · exact .inl c2
      · rw [if_pos c1] at ex; rw [if_neg c2] at ey; omega
    · exact .inr (by omega)
  refine ⟨r, by rw [SortByGlobalID, if_pos hl]; exact ⟨ha, h1⟩, fun b' hb' => ?_, key, fun hs => ?_⟩
  · rw [SortByGlobalID, if_pos hl, h1] at hb'
    exact (Option.some.inj hb'.2).symm
  · have hp' := h2.symm.subset hp
    have hq' := h2.symm.subset hq
    have hboth := key.and hs
    have hne : p ≠ q := by rintro rfl; omega
    obtain ⟨i, hi, ei⟩ := List.getElem_of_mem hp'
    obtain ⟨j, hj, ej⟩ := List.getElem_of_mem hq'
    rw [List.pairwise_iff_getElem] at hboth
    rcases Nat.lt_trichotomy i j with h | h | h
    · have := (hboth i j hi hj h).1
      rw [ei, ej] at this; omega
    · subst h; exact hne (ei.symm.trans ej)
    · have := (hboth j i hj hi h).2
      rw [ei, ej] at this; omega

example : let a := (List.range 70).map fun i => 1 + i
    let gid := fun x : Nat => (x : Int) - 10
    (∀ x ∈ a, x ≠ 0) ∧ 16 * 4 < a.length ∧ gid 1 < 0 ∧ 0 ≤ gid 70 ∧
    radix (gidBits 4 gid) 4 a = some (a.drop 9 ++ a.take 9) := by
  decide +kernel

end Verif.Sort
