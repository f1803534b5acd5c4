import Verif.Handles.Model

/-!
# C01: element handles identify elements uniquely

The properties are stated for the six element types of the library and for every
local number that fits the id field (`0 ≤ id`, `id + 1 < 2^(w-3)`), for every word
width `w ≥ 5` (INMOST uses 32 and 64).
-/

namespace Verif.Handles

/-- The six element types of the library, in order of their number. -/
def elementTypes : List ElementType := [NODE, EDGE, FACE, CELL, ESET, MESH]

/-- The local numbers that fit the id field of a `w`-bit handle. -/
def ValidId (w : Nat) (id : Int) : Prop := 0 ≤ id ∧ id + 1 < 2 ^ (w - 3)

/-- `ElementNum` is the position of the (single) bit of the type. -/
theorem elementNum_spec : ∀ t ∈ elementTypes,
    elementTypes[(elementNum t).toNat]? = some t ∧ 1 <<< (elementNum t).toNat = t.toNat := by
  decide +kernel

private theorem pow_split {w : Nat} (hw : 5 ≤ w) : 2 ^ w = 8 * 2 ^ (w - 3) := by
  rw [show (8 : Nat) = 2 ^ 3 from rfl, ← Nat.pow_add]; congr 1; omega

private theorem pow_pos' (n : Nat) : 0 < 2 ^ n := Nat.pos_of_ne_zero (by simp)

private theorem four_le {w : Nat} (hw : 5 ≤ w) : 4 ≤ 2 ^ (w - 3) := by
  have : 2 ^ 2 ≤ 2 ^ (w - 3) := Nat.pow_le_pow_right (by omega) (by omega)
  simpa using this

/-- The numeric value of a composed handle. -/
theorem composeNum_toNat {w : Nat} (hw : 5 ≤ w) (n : Nat) (hn : n < 8) (id : Int)
    (hid : ValidId w id) :
    (composeHandleNum (BitVec.ofNat w n) id : Handle w).toNat = n * 2 ^ (w - 3) + (id.toNat + 1) := by
  obtain ⟨h0, h1⟩ := hid
  have hp := pow_split hw
  have h4 := four_le hw
  unfold composeHandleNum handleShift
  rw [if_neg (by omega)]
  obtain ⟨k, rfl⟩ := Int.eq_ofNat_of_zero_le h0
  have hk : k + 1 < 2 ^ (w - 3) := by
    have : ((k + 1 : Nat) : Int) < ((2 ^ (w - 3) : Nat) : Int) := by push_cast; exact h1
    exact_mod_cast this
  rw [BitVec.toNat_add, BitVec.toNat_add, BitVec.toNat_shiftLeft, BitVec.toNat_ofNat,
    BitVec.toNat_ofNat]
  have e : BitVec.ofInt w (k : Int) = BitVec.ofNat w k := by simp
  rw [e, BitVec.toNat_ofNat, Nat.shiftLeft_eq]
  have hn' : n % 2 ^ w = n := Nat.mod_eq_of_lt (by omega)
  have hk' : k % 2 ^ w = k := Nat.mod_eq_of_lt (by omega)
  have h1' : 1 % 2 ^ w = 1 := Nat.mod_eq_of_lt (by omega)
  rw [hn', hk', h1']
  have hb : n * 2 ^ (w - 3) ≤ 7 * 2 ^ (w - 3) := Nat.mul_le_mul_right _ (by omega)
  rw [Nat.mod_eq_of_lt (a := n * 2 ^ (w - 3)) (by omega),
    Nat.mod_eq_of_lt (a := 1 + k) (by omega), Nat.mod_eq_of_lt (by omega)]
  simp only [Int.toNat_natCast]; omega

private theorem mask_toNat {w : Nat} (hw : 5 ≤ w) : (handleIdMask w).toNat = 2 ^ (w - 3) - 1 := by
  have hp := pow_split hw
  have h4 := four_le hw
  unfold handleIdMask handleShift
  rw [BitVec.toNat_sub, BitVec.toNat_shiftLeft, BitVec.toNat_ofNat, Nat.shiftLeft_eq,
    Nat.mod_eq_of_lt (a := 1) (by omega), Nat.one_mul, Nat.mod_eq_of_lt (a := 2 ^ (w - 3)) (by omega),
    show 2 ^ w - 1 + 2 ^ (w - 3) = (2 ^ (w - 3) - 1) + 2 ^ w by omega, Nat.add_mod_right]
  exact Nat.mod_eq_of_lt (by omega)

theorem getHandleID_of_toNat {w : Nat} (hw : 5 ≤ w) (h : Handle w) (n k : Nat)
    (hn : n < 8) (hk : k + 1 < 2 ^ (w - 3)) (e : h.toNat = n * 2 ^ (w - 3) + (k + 1)) :
    getHandleID h = k := by
  have hp := pow_split hw
  have h4 := four_le hw
  unfold getHandleID
  have e1 : ((h &&& handleIdMask w) - 1#w).toNat = k := by
    rw [BitVec.toNat_sub, BitVec.toNat_and, mask_toNat hw, Nat.and_two_pow_sub_one_eq_mod, e,
      BitVec.toNat_ofNat, Nat.mod_eq_of_lt (a := 1) (by omega)]
    rw [Nat.add_comm (n * _), Nat.add_mul_mod_self_right, Nat.mod_eq_of_lt hk]
    rw [show 2 ^ w - 1 + (k + 1) = k + 2 ^ w by omega, Nat.add_mod_right]
    exact Nat.mod_eq_of_lt (by omega)
  rw [BitVec.toInt_eq_toNat_of_lt (by omega), e1]

theorem getHandleNum_of_toNat {w : Nat} (hw : 5 ≤ w) (h : Handle w) (n k : Nat)
    (hn : n < 8) (hk : k + 1 < 2 ^ (w - 3)) (e : h.toNat = n * 2 ^ (w - 3) + (k + 1)) :
    getHandleElementNum h = n := by
  have hp := pow_split hw
  have h4 := four_le hw
  unfold getHandleElementNum handleShift
  have e1 : (h >>> (w - 3)).toNat = n := by
    rw [BitVec.toNat_ushiftRight, Nat.shiftRight_eq_div_pow, e, Nat.add_comm,
      Nat.add_mul_div_right _ _ (by omega), Nat.div_eq_of_lt hk, Nat.zero_add]
  rw [BitVec.toInt_eq_toNat_of_lt (by omega), e1]

private theorem num_cases {w : Nat} : ∀ t ∈ elementTypes,
    (elementNum t).setWidth w = BitVec.ofNat w (elementNum t).toNat ∧ (elementNum t).toNat < 8 := by
  intro t ht
  refine ⟨?_, ?_⟩
  · apply BitVec.eq_of_toNat_eq; simp
  · revert t; decide +kernel

/-- **C01** (round trip).  Composing a handle from one of the six types and a local
number and asking it for type and number gives these back. -/
theorem C01_roundtrip {w : Nat} (hw : 5 ≤ w) (t : ElementType) (ht : t ∈ elementTypes)
    (id : Int) (hid : ValidId w id) :
    getHandleID (composeHandle t id : Handle w) = id ∧
    getHandleElementType (composeHandle t id : Handle w) = t := by
  obtain ⟨e, hn⟩ := num_cases (w := w) t ht
  have hc := composeNum_toNat hw _ hn id hid
  obtain ⟨h0, h1⟩ := hid
  have hk : id.toNat + 1 < 2 ^ (w - 3) := by
    have : ((id.toNat + 1 : Nat) : Int) < ((2 ^ (w - 3) : Nat) : Int) := by push_cast; omega
    exact_mod_cast this
  unfold composeHandle getHandleElementType
  rw [e]
  refine ⟨?_, ?_⟩
  · rw [getHandleID_of_toNat hw _ _ _ hn hk hc]; omega
  · rw [getHandleNum_of_toNat hw _ _ _ hn hk hc, Int.toNat_natCast, (elementNum_spec t ht).2]
    simp

example : ValidId 32 536870910 ∧ ESET ∈ elementTypes := by
  constructor
  · exact ⟨by decide, by decide⟩
  · decide

/-- **C01** (uniqueness).  Different (type, number) pairs have different handles. -/
theorem C01_injective {w : Nat} (hw : 5 ≤ w) (t t' : ElementType) (ht : t ∈ elementTypes)
    (ht' : t' ∈ elementTypes) (id id' : Int) (hid : ValidId w id) (hid' : ValidId w id')
    (h : (composeHandle t id : Handle w) = composeHandle t' id') : t = t' ∧ id = id' := by
  have a := C01_roundtrip hw t ht id hid
  have b := C01_roundtrip hw t' ht' id' hid'
  rw [h] at a
  exact ⟨a.2.symm.trans b.2, a.1.symm.trans b.1⟩

/-- **C01** (validity).  A composed handle is never the invalid handle; the number `-1`
gives the invalid handle. -/
theorem C01_valid {w : Nat} (hw : 5 ≤ w) (t : ElementType) (ht : t ∈ elementTypes)
    (id : Int) (hid : ValidId w id) :
    (composeHandle t id : Handle w) ≠ invalidHandle w ∧
    isValidHandle (composeHandle t id : Handle w) = true ∧
    (composeHandle t (-1) : Handle w) = invalidHandle w := by
  obtain ⟨e, hn⟩ := num_cases (w := w) t ht
  have hc := composeNum_toNat hw _ hn id hid
  have hne : (composeHandle t id : Handle w) ≠ 0#w := by
    unfold composeHandle; rw [e]
    intro h; rw [h] at hc; simp at hc
  refine ⟨hne, ?_, ?_⟩
  · simpa [isValidHandle] using hne
  · simp [composeHandle, composeHandleNum]

/-- **C01** (order).  Handles of one type are ordered as the local numbers, and handles of
different types are ordered as the type numbers (the library sorts by handle and relies
on this, e.g. in `HandleComparator`-sorted sets). -/
theorem C01_ordered {w : Nat} (hw : 5 ≤ w) (t t' : ElementType) (ht : t ∈ elementTypes)
    (ht' : t' ∈ elementTypes) (id id' : Int) (hid : ValidId w id) (hid' : ValidId w id') :
    (composeHandle t id : Handle w) < composeHandle t' id' ↔
      (t < t' ∨ (t = t' ∧ id < id')) := by
  obtain ⟨e, hn⟩ := num_cases (w := w) t ht
  obtain ⟨e', hn'⟩ := num_cases (w := w) t' ht'
  have hc := composeNum_toNat hw _ hn id hid
  have hc' := composeNum_toNat hw _ hn' id' hid'
  have bnd : ∀ i : Int, ValidId w i → i.toNat + 1 < 2 ^ (w - 3) := by
    intro i ⟨h0, h1⟩
    have : ((i.toNat + 1 : Nat) : Int) < ((2 ^ (w - 3) : Nat) : Int) := by push_cast; omega
    exact_mod_cast this
  have b := bnd id hid
  have b' := bnd id' hid'
  have hmono : ∀ t ∈ elementTypes, ∀ t' ∈ elementTypes,
      ((elementNum t).toNat < (elementNum t').toNat ↔ t < t') ∧
      ((elementNum t).toNat = (elementNum t').toNat ↔ t = t') := by decide +kernel
  have m := hmono t ht t' ht'
  rw [BitVec.lt_def]
  unfold composeHandle
  rw [e, e', hc, hc', ← m.1, ← m.2]
  have i0 := hid.1
  have i0' := hid'.1
  generalize (elementNum t).toNat = n at *
  generalize (elementNum t').toNat = n' at *
  generalize 2 ^ (w - 3) = P at *
  rcases Nat.lt_trichotomy n n' with h | h | h
  · have : (n + 1) * P ≤ n' * P := Nat.mul_le_mul_right _ h
    rw [Nat.succ_mul] at this
    omega
  · subst h; omega
  · have : (n' + 1) * P ≤ n * P := Nat.mul_le_mul_right _ h
    rw [Nat.succ_mul] at this
    omega

/-- The per-type constructors and the numeric constructor agree with `ComposeHandle`. -/
theorem C01_percompose {w : Nat} (id : Int) :
    (composeNodeHandle id : Handle w) = composeHandleNum 0#w id ∧
    (composeEdgeHandle id : Handle w) = composeHandleNum 1#w id ∧
    (composeFaceHandle id : Handle w) = composeHandleNum 2#w id ∧
    (composeCellHandle id : Handle w) = composeHandleNum 3#w id ∧
    (composeSetHandle id : Handle w) = composeHandleNum 4#w id := by
  refine ⟨?_, ?_, ?_, ?_, ?_⟩ <;>
  · simp only [composeNodeHandle, composeEdgeHandle, composeFaceHandle, composeCellHandle,
      composeSetHandle, composeHandle]
    congr 1
    apply BitVec.eq_of_toNat_eq
    rw [BitVec.toNat_setWidth]
    rfl

end Verif.Handles
