import Verif.Markers.Model

/-! # Lemmas about marker words and marker bytes -/

namespace Verif.Markers
open Verif.Handles

/-- The marker for bit `b` of byte `k`. -/
def mkr (w k b : Nat) : Marker w := (BitVec.ofNat w k <<< 8) ||| (1#8 <<< b).zeroExtend w

theorem pow_sub_mul {w : Nat} (hw : 9 ≤ w) : 2 ^ w = 2 ^ (w - 9) * 512 := by
  rw [show (512 : Nat) = 2 ^ 9 from rfl, ← Nat.pow_add]; congr 1; omega

theorem mask_toNat {w : Nat} (hw : 9 ≤ w) (k : Nat) (hk : k < 2 ^ (w - 9)) (m : Byte) :
    ((BitVec.ofNat w k <<< 8) ||| m.zeroExtend w : BitVec w).toNat = k * 256 + m.toNat := by
  have hp := pow_sub_mul hw
  have hm := m.isLt
  rw [BitVec.toNat_or, BitVec.toNat_shiftLeft, BitVec.toNat_ofNat, BitVec.zeroExtend,
    BitVec.toNat_setWidth, Nat.mod_eq_of_lt (a := k) (by omega), Nat.shiftLeft_eq,
    Nat.mod_eq_of_lt (a := k * 2 ^ 8) (by omega), Nat.mod_eq_of_lt (a := m.toNat) (by omega),
    ← Nat.shiftLeft_eq, ← Nat.shiftLeft_add_eq_or_of_lt (by simpa using hm), Nat.shiftLeft_eq]

theorem byteIndex_of_toNat {w : Nat} (n : Marker w) (k m : Nat) (hm : m < 256)
    (h : n.toNat = k * 256 + m) : byteIndex n = k := by
  unfold byteIndex
  rw [BitVec.toNat_ushiftRight, Nat.shiftRight_eq_div_pow, h]; omega

theorem byteMask_of_toNat {w : Nat} (hw : 9 ≤ w) (n : Marker w) (k : Nat) (m : Byte)
    (h : n.toNat = k * 256 + m.toNat) : byteMask n = m := by
  unfold byteMask
  have hp := pow_sub_mul hw
  have hm := m.isLt
  have h0 : 0 < 2 ^ (w - 9) := Nat.pos_of_ne_zero (by simp)
  apply BitVec.eq_of_toNat_eq
  rw [BitVec.toNat_setWidth, BitVec.toNat_and, BitVec.toNat_ofNat,
    Nat.mod_eq_of_lt (a := 255) (by omega), show (255 : Nat) = 2 ^ 8 - 1 from rfl,
    Nat.and_two_pow_sub_one_eq_mod, h]
  omega

theorem oneHot_toNat : ∀ b : Fin 8, (1#8 <<< b.val).toNat = 2 ^ b.val := by decide

theorem mkr_toNat {w k b : Nat} (hw : 9 ≤ w) (hk : k < 2 ^ (w - 9)) (hb : b < 8) :
    (mkr w k b).toNat = k * 256 + 2 ^ b := by
  unfold mkr
  rw [mask_toNat hw k hk, oneHot_toNat ⟨b, hb⟩]

theorem byteIndex_mkr {w k b : Nat} (hw : 9 ≤ w) (hk : k < 2 ^ (w - 9)) :
    byteIndex (mkr w k b) = k := by
  unfold mkr
  exact byteIndex_of_toNat _ k _ (1#8 <<< b).isLt (mask_toNat hw k hk _)

theorem byteMask_mkr {w k b : Nat} (hw : 9 ≤ w) (hk : k < 2 ^ (w - 9)) :
    byteMask (mkr w k b) = 1#8 <<< b := by
  unfold mkr
  exact byteMask_of_toNat hw _ k _ (mask_toNat hw k hk _)

theorem oneHot_inj : ∀ b c : Fin 8, 1#8 <<< b.val = 1#8 <<< c.val → b = c := by decide

theorem mkr_inj {w k b k' b' : Nat} (hw : 9 ≤ w) (hk : k < 2 ^ (w - 9)) (hk' : k' < 2 ^ (w - 9))
    (hb : b < 8) (hb' : b' < 8) (h : mkr w k b = mkr w k' b') : k = k' ∧ b = b' := by
  have h1 := byteIndex_mkr (b := b) hw hk
  have h2 := byteMask_mkr (b := b) hw hk
  rw [h, byteIndex_mkr hw hk'] at h1
  rw [h, byteMask_mkr hw hk'] at h2
  have := oneHot_inj ⟨b', hb'⟩ ⟨b, hb⟩ h2
  simp at this
  exact ⟨h1.symm, this.symm⟩

/-! ## Private bit -/

theorem mkr_getMsb {w k b : Nat} (hw : 9 ≤ w) (hk : k < 2 ^ (w - 9)) (hb : b < 8) :
    (mkr w k b).getLsbD (w - 1) = false := by
  have h := mkr_toNat hw hk hb
  have hp := pow_sub_mul hw
  have h2 : 2 ^ b ≤ 2 ^ 7 := Nat.pow_le_pow_right (by omega) (by omega)
  have h3 : 2 ^ (w - 1) = 2 ^ (w - 9) * 256 := by
    rw [show (256 : Nat) = 2 ^ 8 from rfl, ← Nat.pow_add]; congr 1; omega
  rw [BitVec.getLsbD, Nat.testBit_lt_two_pow]
  omega

theorem privateBit_getLsbD {w : Nat} (hw : 9 ≤ w) (i : Nat) :
    (privateBit w).getLsbD i = decide (i = w - 1) := by
  unfold privateBit
  simp only [BitVec.getLsbD_shiftLeft, BitVec.getLsbD_one]
  by_cases h : i = w - 1
  · subst h; simp; omega
  · simp [h]; omega

theorem isPrivate_iff {w : Nat} (hw : 9 ≤ w) (n : Marker w) :
    isPrivate n = n.getLsbD (w - 1) := by
  unfold isPrivate
  rw [Bool.eq_iff_iff, beq_iff_eq]
  constructor
  · intro h
    have := congrArg (fun x => BitVec.getLsbD x (w - 1)) h
    simpa [privateBit_getLsbD hw] using this
  · intro h
    apply BitVec.eq_of_getLsbD_eq
    intro i hi
    rw [BitVec.getLsbD_and, privateBit_getLsbD hw]
    by_cases e : i = w - 1
    · subst e; simp [h]
    · simp [e]

theorem isPrivate_mkr {w k b : Nat} (hw : 9 ≤ w) (hk : k < 2 ^ (w - 9)) (hb : b < 8) :
    isPrivate (mkr w k b) = false := by rw [isPrivate_iff hw, mkr_getMsb hw hk hb]

theorem isPrivate_or {w : Nat} (hw : 9 ≤ w) (n : Marker w) :
    isPrivate (n ||| privateBit w) = true := by
  rw [isPrivate_iff hw, BitVec.getLsbD_or, privateBit_getLsbD hw]; simp

theorem strip_or_mkr {w k b : Nat} (hw : 9 ≤ w) (hk : k < 2 ^ (w - 9)) (hb : b < 8) :
    (mkr w k b ||| privateBit w) &&& ~~~ privateBit w = mkr w k b := by
  apply BitVec.eq_of_getLsbD_eq
  intro i hi
  rw [BitVec.getLsbD_and, BitVec.getLsbD_or, BitVec.getLsbD_not, privateBit_getLsbD hw]
  by_cases e : i = w - 1
  · subst e; simp [mkr_getMsb hw hk hb]
  · simp [e, hi]

/-! ## Bits of bytes -/

theorem freeBit_spec : ∀ x : Byte, (freeBit x = 0 ∧ ∀ b : Fin 8, x.getLsbD b = true) ∨
    ∃ b : Fin 8, freeBit x = 1#8 <<< b.val ∧ x.getLsbD b = false := by
  intro x
  have : ∀ n : Fin 256, (freeBit (BitVec.ofNat 8 n.val) = 0 ∧
      ∀ b : Fin 8, (BitVec.ofNat 8 n.val).getLsbD b = true) ∨
      ∃ b : Fin 8, freeBit (BitVec.ofNat 8 n.val) = 1#8 <<< b.val ∧
        (BitVec.ofNat 8 n.val).getLsbD b = false := by decide +kernel
  have h := this ⟨x.toNat, x.isLt⟩
  simpa using h

theorem oneHot_ne_zero : ∀ b : Fin 8, 1#8 <<< b.val ≠ 0 := by decide

theorem oneHot_getLsbD : ∀ b c : Fin 8, (1#8 <<< b.val).getLsbD c.val = decide (b = c) := by decide

theorem or_oneHot (x : Byte) (b c : Nat) (hb : b < 8) (hc : c < 8) :
    (x ||| 1#8 <<< b).getLsbD c = (decide (b = c) || x.getLsbD c) := by
  rw [BitVec.getLsbD_or, oneHot_getLsbD ⟨b, hb⟩ ⟨c, hc⟩]; simp [Bool.or_comm]

theorem andNot_oneHot (x : Byte) (b c : Nat) (hb : b < 8) (hc : c < 8) :
    (x &&& ~~~ (1#8 <<< b)).getLsbD c = (!decide (b = c) && x.getLsbD c) := by
  rw [BitVec.getLsbD_and, BitVec.getLsbD_not, oneHot_getLsbD ⟨b, hb⟩ ⟨c, hc⟩]
  simp [hc, Bool.and_comm]

theorem and_oneHot_ne (x : Byte) (b : Nat) (hb : b < 8) :
    ((x &&& 1#8 <<< b) != 0) = x.getLsbD b := by
  rw [Bool.eq_iff_iff, bne_iff_ne]
  constructor
  · intro h
    cases e : x.getLsbD b with
    | true => rfl
    | false =>
      exfalso; apply h
      apply BitVec.eq_of_getLsbD_eq
      intro i hi
      rw [BitVec.getLsbD_and, oneHot_getLsbD ⟨b, hb⟩ ⟨i, hi⟩]
      by_cases q : b = i
      · subst q; simp [e]
      · simp [q]
  · intro h e
    have := congrArg (fun y => BitVec.getLsbD y b) e
    simp only [BitVec.getLsbD_and, h] at this
    rw [oneHot_getLsbD ⟨b, hb⟩ ⟨b, hb⟩] at this
    simp at this

/-- Bit `b` of byte `k` of a list of bytes. -/
def bit (bs : List Byte) (k b : Nat) : Bool :=
  match bs[k]? with
  | none => false
  | some x => x.getLsbD b

theorem setBytes_mkr {w k b : Nat} (hw : 9 ≤ w) (hk : k < 2 ^ (w - 9)) (hb : b < 8)
    (bs : List Byte) (hl : k < bs.length) :
    ∃ bs', setBytes bs (mkr w k b) = some bs' ∧ bs'.length = bs.length ∧
      ∀ k' b', b' < 8 → bit bs' k' b' = (decide (k' = k ∧ b' = b) || bit bs k' b') := by
  have e : bs[k]? = some bs[k] := List.getElem?_eq_getElem hl
  refine ⟨bs.set k (bs[k] ||| 1#8 <<< b), ?_, by simp, ?_⟩
  · simp [setBytes, byteIndex_mkr hw hk, byteMask_mkr hw hk, e]
  · intro k' b' hb'
    unfold bit
    by_cases q : k' = k
    · subst q
      rw [List.getElem?_set_self hl, e]
      simp only [or_oneHot _ _ _ hb hb']
      congr 1
      simp [eq_comm]
    · rw [List.getElem?_set_ne (Ne.symm q)]
      simp [q]

theorem remBytes_mkr {w k b : Nat} (hw : 9 ≤ w) (hk : k < 2 ^ (w - 9)) (hb : b < 8)
    (bs : List Byte) (hl : k < bs.length) :
    ∃ bs', remBytes bs (mkr w k b) = some bs' ∧ bs'.length = bs.length ∧
      ∀ k' b', b' < 8 → bit bs' k' b' = (!decide (k' = k ∧ b' = b) && bit bs k' b') := by
  have e : bs[k]? = some bs[k] := List.getElem?_eq_getElem hl
  refine ⟨bs.set k (bs[k] &&& ~~~ (1#8 <<< b)), ?_, by simp, ?_⟩
  · simp [remBytes, byteIndex_mkr hw hk, byteMask_mkr hw hk, e]
  · intro k' b' hb'
    unfold bit
    by_cases q : k' = k
    · subst q
      rw [List.getElem?_set_self hl, e]
      simp only [andNot_oneHot _ _ _ hb hb']
      congr 2
      simp [eq_comm]
    · rw [List.getElem?_set_ne (Ne.symm q)]
      simp [q]

theorem getBytes_mkr {w k b : Nat} (hw : 9 ≤ w) (hk : k < 2 ^ (w - 9)) (hb : b < 8)
    (bs : List Byte) (hl : k < bs.length) :
    getBytes bs (mkr w k b) = some (bit bs k b) := by
  have e : bs[k]? = some bs[k] := List.getElem?_eq_getElem hl
  simp only [getBytes, bit, byteIndex_mkr hw hk, byteMask_mkr hw hk, e, and_oneHot_ne _ _ hb]

theorem createLoop_spec {w : Nat} (bs : List Byte) (k0 : Nat) :
    match (createLoop k0 bs : Option (Marker w × List Byte)) with
    | none => ∀ k b, k < bs.length → b < 8 → bit bs k b = true
    | some (m, bs') => ∃ k b, k < bs.length ∧ b < 8 ∧ m = mkr w (k0 + k) b ∧ bit bs k b = false ∧
        bs'.length = bs.length ∧
        ∀ k' b', b' < 8 → bit bs' k' b' = (decide (k' = k ∧ b' = b) || bit bs k' b') := by
  induction bs generalizing k0 with
  | nil => simp [createLoop]
  | cons x xs ih =>
    rw [createLoop]
    rcases freeBit_spec x with ⟨hz, hall⟩ | ⟨b, hb, hx⟩
    · simp only [hz, ne_eq, not_true_eq_false, if_false]
      have := ih (k0 + 1)
      revert this
      cases (createLoop (k0 + 1) xs : Option (Marker w × List Byte)) with
      | none =>
        intro h k b hk hb
        cases k with
        | zero => simpa [bit] using hall ⟨b, hb⟩
        | succ k => simpa [bit] using h k b (by simpa using hk) hb
      | some p =>
        obtain ⟨m, bs'⟩ := p
        rintro ⟨k, b, hk, hb, hm, hbit, hlen, hupd⟩
        refine ⟨k + 1, b, by simpa using hk, hb, ?_, by simpa [bit] using hbit, by simp [hlen], ?_⟩
        · rw [hm]; congr 1; omega
        · intro k' b' hb'
          cases k' with
          | zero => simp [bit]
          | succ k' => simpa [bit] using hupd k' b' hb'
    · have hne : freeBit x ≠ 0 := by rw [hb]; exact oneHot_ne_zero b
      simp only [if_pos hne]
      refine ⟨0, b.val, by simp, b.isLt, ?_, by simpa [bit] using hx, by simp, ?_⟩
      · rw [hb]; rfl
      · intro k' b' hb'
        cases k' with
        | zero =>
          simp only [bit, List.getElem?_cons_zero]
          rw [hb, or_oneHot _ _ _ b.isLt hb']
          congr 1
          simp [eq_comm]
        | succ k' => simp [bit]

end Verif.Markers
