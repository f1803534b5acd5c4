import Verif.Search.Model
import Verif.Sort.Lemmas

/-!
# The radix sort of the tree is a stable sort by the key
-/

namespace Verif.Search

open Verif.Sort

/-- Using the last counter as a temporary variable does no harm. -/
theorem sums_eq (key : Nat → Nat) (a : List Nat) : ∀ (n i : Nat) (sum : U32) (b : Nat → U32),
    i + n = kHist → (i < kHist → sum = BitVec.ofNat 32 (buckets key a i).length) →
    (∀ k, i ≤ k → k < kHist - 1 → b k = hist key a k) →
    (∀ k, k < i → b k = BitVec.ofNat 32 (buckets key a k).length - 1) → ∀ k < kHist,
    sums n i sum b k = BitVec.ofNat 32 (buckets key a k).length - 1 := by
  intro n
  induction n with
  | zero =>
    intro i sum b hi _ _ hb k hk
    rw [sums]; exact hb k (by omega)
  | succ n ih =>
    intro i sum b hi hs hb hb' k hk
    rw [sums]
    have hlt : i < kHist := by omega
    have hs' := hs hlt
    refine ih (i + 1) _ _ (by omega) ?_ ?_ ?_ k hk
    · intro h
      have hne : i ≠ kHist - 1 := by omega
      have hne' : ¬ kHist - 1 = i := fun h => hne h.symm
      simp only [put, hne', if_false, if_true]
      rw [hb i (Nat.le_refl _) (by omega), count_hist, hs', buckets_succ, List.length_append, Nat.add_comm,
        BitVec.ofNat_add]
    · intro k h1 h2
      have e1 : ¬ k = i := by omega
      have e2 : ¬ k = kHist - 1 := by omega
      simp only [put, e1, e2, if_false]
      exact hb k (by omega) h2
    · intro k h1
      by_cases e : k = i
      · subst e
        simp only [put, if_true]
        rw [hs']
      · have e2 : ¬ k = kHist - 1 := by omega
        simp only [put, e, e2, if_false]
        exact hb' k (by omega)

theorem pass {key : Nat → Nat} {orig src dst : List Nat} (hk : ∀ x, key x < kHist)
    (hp : src.Perm orig) (hlen : orig.length < 2 ^ 32) (hd : dst.length = src.length) :
    scatter key src (sums kHist 0 0 (hist key orig)) dst = some (buckets key src kHist) := by
  have hh : hist key orig = hist key src := by
    funext k
    rw [count_hist, count_hist, (hp.filter _).length_eq]
  rw [hh]
  refine pass_of hk (by rw [hp.length_eq]; exact hlen) hd ?_
  exact sums_eq key src kHist 0 0 _ (by omega) (fun _ => by simp [buckets]) (fun _ _ _ => rfl)
    (fun k h => absurd h (by omega))

theorem m0_eq (x : U32) : m0 x = x.toNat % 2048 := by
  rw [m0, BitVec.toNat_and]; exact Nat.and_two_pow_sub_one_eq_mod x.toNat 11

theorem m1_eq (x : U32) : m1 x = x.toNat / 2048 % 2048 := by
  rw [m1, BitVec.toNat_and, BitVec.toNat_ushiftRight, Nat.shiftRight_eq_div_pow]
  exact Nat.and_two_pow_sub_one_eq_mod _ 11

theorem m2_eq (x : U32) : m2 x = x.toNat / 4194304 := by
  rw [m2, BitVec.toNat_ushiftRight, Nat.shiftRight_eq_div_pow]

theorem m0_lt (x : U32) : m0 x < kHist := by rw [m0_eq]; exact Nat.mod_lt _ (by decide)
theorem m1_lt (x : U32) : m1 x < kHist := by rw [m1_eq]; exact Nat.mod_lt _ (by decide)
theorem m2_lt (x : U32) : m2 x < kHist := by
  rw [m2_eq]; have := x.isLt; simp only [kHist]; omega

/-- The radix sort never writes outside of the arrays, permutes the entries and orders them by
their flipped bits. -/
theorem radixSort_spec (key : Nat → U32) (set tmp : List Nat) (hlen : set.length < 2 ^ 32)
    (ht : tmp.length = set.length) :
    ∃ r, radixSort key set tmp = some r ∧ r.Perm set ∧
      r.Pairwise fun a b => (flip (key a)).toNat ≤ (flip (key b)).toNat := by
  let k0 := fun e => m0 (flip (key e))
  let k1 := fun e => m1 (flip (key e))
  let k2 := fun e => m2 (flip (key e))
  have h0 : ∀ x, k0 x < kHist := fun x => m0_lt _
  have h1 : ∀ x, k1 x < kHist := fun x => m1_lt _
  have h2 : ∀ x, k2 x < kHist := fun x => m2_lt _
  have p0 : (buckets k0 set kHist).Perm set := buckets_perm_self h0
  have p1 : (buckets k1 (buckets k0 set kHist) kHist).Perm set := (buckets_perm_self h1).trans p0
  have p2 : (buckets k2 (buckets k1 (buckets k0 set kHist) kHist) kHist).Perm set :=
    (buckets_perm_self h2).trans p1
  have e0 := pass (dst := tmp) h0 (.refl set) hlen ht
  have e1 := pass (dst := set) h1 p0 hlen p0.length_eq.symm
  have e2 := pass (dst := buckets k0 set kHist) h2 p1 hlen (by rw [p0.length_eq, p1.length_eq])
  refine ⟨_, ?_, p2, ?_⟩
  · simp only [radixSort]
    rw [e0]; simp only []
    rw [e1]; simp only []
    rw [e2]
  · have s0 := buckets_pairwise (key := k0) (R := fun _ _ => True)
      (List.pairwise_of_forall (l := set) (by intros; trivial)) kHist
    have s1 := buckets_pairwise (key := k1) s0 kHist
    have s2 := buckets_pairwise (key := k2) s1 kHist
    refine s2.imp ?_
    intro a b h
    simp only [k0, k1, k2, m0_eq, m1_eq, m2_eq] at h
    omega

theorem flip_neg {a : U32} (h : a.msb = true) : (flip a).toNat = 2 ^ 32 - 1 - a.toNat := by
  have h1 : 2 ^ 31 ≤ a.toNat := by
    have := BitVec.msb_eq_decide a; rw [h] at this; exact of_decide_eq_true this.symm
  have h2 : a >>> 31 = 1#32 := by
    apply BitVec.eq_of_toNat_eq
    rw [BitVec.toNat_ushiftRight, Nat.shiftRight_eq_div_pow]
    have := a.isLt
    show a.toNat / 2 ^ 31 = 1
    omega
  have h3 : flip a = ~~~ a := by
    rw [flip, h2]
    have : (-(1#32) ||| 0x80000000#32) = BitVec.allOnes 32 := by decide
    rw [this, BitVec.xor_allOnes]
  rw [h3, BitVec.toNat_not]

theorem xor_top (n : Nat) (h : n < 2 ^ 31) : n ^^^ 2 ^ 31 = 2 ^ 31 + n := by
  have e : 2 ^ 31 + n = 2 ^ 31 ||| n := by
    have := Nat.two_pow_add_eq_or_of_lt h 1
    simpa using this
  rw [e]
  apply Nat.eq_of_testBit_eq
  intro i
  rw [Nat.testBit_xor, Nat.testBit_or, Nat.testBit_two_pow]
  by_cases hi : 31 = i
  · subst hi
    rw [Nat.testBit_lt_two_pow h]; simp
  · simp [hi]

theorem flip_pos {a : U32} (h : a.msb = false) : (flip a).toNat = 2 ^ 31 + a.toNat := by
  have h1 : a.toNat < 2 ^ 31 := by
    have := BitVec.msb_eq_decide a; rw [h] at this
    have := of_decide_eq_false this.symm; simpa using this
  have h2 : a >>> 31 = 0#32 := by
    apply BitVec.eq_of_toNat_eq
    rw [BitVec.toNat_ushiftRight, Nat.shiftRight_eq_div_pow]
    show a.toNat / 2 ^ 31 = 0
    omega
  have h3 : flip a = a ^^^ 0x80000000#32 := by
    rw [flip, h2]
    have : (-(0#32) ||| 0x80000000#32) = 0x80000000#32 := by decide
    rw [this]
  rw [h3, BitVec.toNat_xor]
  exact xor_top _ h1

theorem mag_eq (u : U32) : (u &&& 0x7FFFFFFF#32).toNat = u.toNat % 2 ^ 31 := by
  rw [BitVec.toNat_and]; exact Nat.and_two_pow_sub_one_eq_mod u.toNat 31

/-- Flipping the bits turns the order of floats into that of unsigned numbers. -/
theorem flip_mono (a b : U32) (h : (flip a).toNat ≤ (flip b).toNat) : fltLt b a = false := by
  have la := a.isLt
  have lb := b.isLt
  have msba := BitVec.msb_eq_decide a
  have msbb := BitVec.msb_eq_decide b
  simp only [fltLt, mag_eq]
  cases ha : a.msb <;> cases hb : b.msb
  · rw [flip_pos ha, flip_pos hb] at h
    rw [ha] at msba; rw [hb] at msbb
    have h1 := of_decide_eq_false msba.symm
    have h2 := of_decide_eq_false msbb.symm
    simp; omega
  · rw [flip_pos ha, flip_neg hb] at h
    rw [hb] at msbb
    have h2 := of_decide_eq_true msbb.symm
    omega
  · simp
  · rw [flip_neg ha, flip_neg hb] at h
    rw [ha] at msba; rw [hb] at msbb
    have h1 := of_decide_eq_true msba.symm
    have h2 := of_decide_eq_true msbb.symm
    simp; omega

/-- Whatever way the array is sorted, it is permuted and ordered by the coordinate. -/
theorem sorted_spec {key : Nat → U32} {set set' : List Nat} (hlen : set.length < 2 ^ 32)
    (h : Sorted key set set') :
    set'.Perm set ∧ set'.Pairwise fun a b => fltLt (key b) (key a) = false := by
  rw [Sorted] at h
  split at h
  · obtain ⟨tmp, h1, h2⟩ := h
    obtain ⟨r, e, p, s⟩ := radixSort_spec key set tmp hlen h1
    rw [e] at h2; cases h2
    exact ⟨p, s.imp fun {a b} hab => flip_mono _ _ hab⟩
  · exact h

theorem fltLt_total (a b c : U32) (h1 : fltLt b a = false) (h2 : fltLt c b = false) : fltLt c a = false := by
  simp only [fltLt, mag_eq] at *
  cases ha : a.msb <;> cases hb : b.msb <;> cases hc : c.msb <;> simp_all <;> omega

theorem fltLt_asymm (a b : U32) : fltLt a b = false ∨ fltLt b a = false := by
  simp only [fltLt, mag_eq]
  cases ha : a.msb <;> cases hb : b.msb <;> simp <;> omega

/-- Some result of sorting exists. -/
theorem sorted_exists (key : Nat → U32) (set : List Nat) (hlen : set.length < 2 ^ 32) :
    ∃ set', Sorted key set set' := by
  by_cases h : 128 < set.length
  · obtain ⟨r, e, _⟩ := radixSort_spec key set set hlen rfl
    exact ⟨r, by rw [Sorted, if_pos h]; exact ⟨set, rfl, e⟩⟩
  · refine ⟨set.mergeSort fun a b => !fltLt (key b) (key a), ?_⟩
    rw [Sorted, if_neg h]
    refine ⟨List.mergeSort_perm _ _, ?_⟩
    have := List.pairwise_mergeSort (le := fun a b => !fltLt (key b) (key a))
      (by intro a b c h1 h2; simp only [Bool.not_eq_true'] at *; exact fltLt_total _ _ _ h1 h2)
      (by intro a b; rcases fltLt_asymm (key b) (key a) with h | h <;> simp [h]) set
    refine this.imp ?_
    intro a b h; simpa using h

end Verif.Search
