import Verif.Binary.Spec
import Mathlib.Algebra.Order.BigOperators.Group.Finset
import Mathlib.Algebra.BigOperators.Intervals
import Mathlib.Tactic.Ring

/-!
# C41: integers in binary files
-/

namespace Verif.Binary

open Verif.Dense (forRange updV forRange_rule)

theorem flipBytes_eq (size : Nat) (temp : Nat → Nat) (i : Nat) (hi : i < size) : flipBytes size temp i = temp (size - 1 - i) := by
  unfold flipBytes
  rw [Nat.shiftRight_eq_div_pow]
  have H := forRange_rule (fun q (t : Nat → Nat) => ∀ i, i < size → t i = if i < q ∨ size - 1 - i < q then temp (size - 1 - i) else temp i) 0
    (size / 2 ^ 1) (Nat.zero_le _) (fun i temp => exchange temp i (size - 1 - i)) temp (by intro i _; rw [if_neg (by omega)]) ?_
  · rw [H i hi]
    by_cases h : i < size / 2 ^ 1 ∨ size - 1 - i < size / 2 ^ 1
    · rw [if_pos h]
    · rw [if_neg h]; congr 1; omega
  · intro q t _ hq ht i hi
    simp only [exchange, updV]
    have hq1 := ht q (by omega)
    rw [if_neg (by omega)] at hq1
    have hq2 := ht (size - 1 - q) (by omega)
    rw [if_neg (by omega)] at hq2
    by_cases h1 : i = size - 1 - q
    · subst h1
      rw [if_pos rfl, hq1, if_pos (by omega)]
      congr 1; omega
    · rw [if_neg h1]
      by_cases h2 : i = q
      · subst h2
        rw [if_pos rfl, hq2, if_pos (by omega)]
      · rw [if_neg h2, ht i hi]
        by_cases h3 : i < q ∨ size - 1 - i < q
        · rw [if_pos h3, if_pos (by omega)]
        · rw [if_neg h3, if_neg (by omega)]

theorem swapPairs_eq (size : Nat) (he : size % 2 = 0) (temp : Nat → Nat) (i : Nat) (hi : i < size) :
    swapPairs size temp i = temp (partner i) := by
  unfold swapPairs
  have H := forRange_rule (fun q (t : Nat → Nat) => ∀ i, t i = if i < 2 * q then temp (partner i) else temp i) 0
    ((size + 1) / 2) (Nat.zero_le _) (fun q temp => exchange temp (2 * q) (2 * q + 1)) temp (by intro i; rw [if_neg (by omega)]) ?_
  · rw [H i, if_pos (by omega)]
  · intro q t _ hq ht i
    simp only [exchange, updV]
    have hq1 := ht (2 * q)
    rw [if_neg (by omega)] at hq1
    have hq2 := ht (2 * q + 1)
    rw [if_neg (by omega)] at hq2
    by_cases h1 : i = 2 * q + 1
    · subst h1
      rw [if_pos rfl, hq1, if_pos (by omega), partner, if_neg (by omega)]
      congr 1
    · rw [if_neg h1]
      by_cases h2 : i = 2 * q
      · subst h2
        rw [if_pos rfl, hq2, if_pos (by omega), partner, if_pos (by omega)]
      · rw [if_neg h2, ht i]
        by_cases h3 : i < 2 * q
        · rw [if_pos h3, if_pos (by omega)]
        · rw [if_neg h3, if_neg (by omega)]

theorem partner_partner (a : Nat) : partner (partner a) = a := by unfold partner; split <;> split <;> omega

theorem partner_lt (a w : Nat) (hw : w % 2 = 0) (h : a < w) : partner a < w := by unfold partner; split <;> omega

theorem convert_spec (so lo : Order) (w v : Nat) (temp : Nat → Nat) (h : Holds so w temp v) (hm : so = .middle ∨ lo = .middle → w % 2 = 0 ∨ so = lo) :
    Holds lo w (convertEndianess w so lo temp) v := by
  have hflip : ∀ t, (∀ k, k < w → t (w - 1 - k) = v / 256 ^ k % 256) → Holds .little w (flipBytes w t) v := by
    intro t ht k hk
    rw [address, flipBytes_eq w t k hk]; exact ht k hk
  have hflip' : ∀ t, Holds .little w t v → ∀ k, k < w → flipBytes w t (w - 1 - k) = v / 256 ^ k % 256 := by
    intro t ht k hk
    rw [flipBytes_eq w t _ (by omega), show w - 1 - (w - 1 - k) = k by omega]; exact ht k hk
  have hswap : w % 2 = 0 → ∀ t, Holds .middle w t v → ∀ k, k < w → swapPairs w t (w - 1 - k) = v / 256 ^ k % 256 := by
    intro he t ht k hk
    rw [swapPairs_eq w he t _ (by omega)]; exact ht k hk
  have hswap' : w % 2 = 0 → ∀ t, (∀ k, k < w → t (w - 1 - k) = v / 256 ^ k % 256) → Holds .middle w (swapPairs w t) v := by
    intro he t ht k hk
    rw [address, swapPairs_eq w he t _ (partner_lt _ w he (by omega)), partner_partner]; exact ht k hk
  cases so <;> cases lo
  · exact h
  · exact hflip' temp h
  · have he : w % 2 = 0 := by rcases hm (Or.inr rfl) with h' | h' <;> first | exact h' | cases h'
    exact hswap' he _ (hflip' temp h)
  · exact hflip temp h
  · exact h
  · have he : w % 2 = 0 := by rcases hm (Or.inr rfl) with h' | h' <;> first | exact h' | cases h'
    exact hswap' he _ h
  · have he : w % 2 = 0 := by rcases hm (Or.inl rfl) with h' | h' <;> first | exact h' | cases h'
    exact hflip _ (hswap he temp h)
  · have he : w % 2 = 0 := by rcases hm (Or.inl rfl) with h' | h' <;> first | exact h' | cases h'
    exact hswap he temp h
  · exact h

theorem digits_sum (v w : Nat) : ∑ k ∈ Finset.range w, v / 256 ^ k % 256 * 256 ^ k = v % 256 ^ w := by
  induction w with
  | zero => simp [Nat.mod_one]
  | succ w ih => rw [Finset.sum_range_succ, ih, Nat.mod_pow_succ]; ring

theorem value_of_holds (o : Order) (w v : Nat) (m : Nat → Nat) (h : Holds o w m v) : value o w m = v % 256 ^ w := by
  rw [← digits_sum]
  unfold value
  apply Finset.sum_congr rfl
  intro k hk
  rw [Finset.mem_range] at hk
  rw [h k hk]

theorem copyHigh_spec (lw sw : Nat) (hl : 0 < lw) (hlt : lw < sw) (hs : sw < 255) (temp : Nat → Nat) (f i : Nat) (bytes : Nat → Nat)
    (hi : i < sw) (hi' : sw ≤ i + 1 + lw) (hf : i + 1 < f + (sw - lw)) (hb : ∀ a, i + 1 ≤ a + (sw - lw) → a < lw → bytes a = temp (a + (sw - lw))) :
    ∃ m, copyHigh lw sw lw temp f i bytes = some m ∧ ∀ a, a < lw → m a = temp (a + (sw - lw)) := by
  induction f generalizing i bytes with
  | zero => omega
  | succ f ih =>
    rw [copyHigh]
    by_cases hc : sw - lw ≤ i
    · rw [if_pos hc, if_pos (by omega)]
      have e : (i + 255) % 256 = i - 1 := by omega
      rw [e]
      apply ih (i - 1) _ (by omega) (by omega) (by omega)
      intro a ha hal
      unfold updV
      by_cases hai : a = i + lw - sw
      · rw [if_pos hai]; congr 1; omega
      · rw [if_neg hai]; exact hb a (by omega) hal
    · rw [if_neg hc]
      exact ⟨bytes, rfl, fun a ha => hb a (by omega) ha⟩

/-- **C41 (partial).**  An unsigned integer written on one machine and read on another has the same value if it fits the reader's width (in general: the value
modulo `256^width`), for all byte orders and widths — if the reader is little-endian, or reads an integer wider than its own.  What is missing: readers that
are not little-endian and read integers not wider than their own, see `C41_high_fails`. -/
theorem C41_integers_partial (so lo : Order) (sw lw v : Nat) (temp : Nat → Nat) (hs : WidthOk so sw) (hl : WidthOk lo lw)
    (hlm : lo = .middle → sw % 2 = 0) (hv : v < 256 ^ sw) (hfile : Holds so sw temp v) (hr : lo = .little ∨ lw < sw) :
    ∃ m, readIValue lo lw so sw temp = some m ∧ value lo lw m = v % 256 ^ lw := by
  have hconv := convert_spec so lo sw v temp hfile (fun h => by
    rcases h with h | h
    · exact Or.inl (hs.2.2 h)
    · exact Or.inl (hlm h))
  obtain ⟨hs0, hs1, _⟩ := hs
  obtain ⟨hl0, hl1, hl2⟩ := hl
  unfold readIValue
  simp only
  generalize convertEndianess sw so lo temp = t at hconv
  by_cases hlo : lo = .little
  · subst hlo
    rw [if_pos rfl]
    refine ⟨_, rfl, value_of_holds .little lw v _ (fun k hk => ?_)⟩
    have H := forRange_rule (fun q (b : Nat → Nat) => ∀ i, b i = if i < q then t i else 0) 0 (min lw sw) (Nat.zero_le _)
      (fun i bytes => updV bytes i (t i)) (fun _ => 0) (by intro i; rw [if_neg (by omega)]) (by
        intro q b _ _ hb i
        unfold updV
        by_cases h : i = q
        · subst h; rw [if_pos rfl, if_pos (by omega)]
        · rw [if_neg h, hb i]
          by_cases h' : i < q
          · rw [if_pos h', if_pos (by omega)]
          · rw [if_neg h', if_neg (by omega)])
    rw [address, H k]
    by_cases hks : k < sw
    · rw [if_pos (by omega)]; exact hconv k hks
    · rw [if_neg (by omega)]
      have : v < 256 ^ k := lt_of_lt_of_le hv (Nat.pow_le_pow_right (by omega) (by omega))
      rw [Nat.div_eq_of_lt this]
  · have hlt : lw < sw := by rcases hr with h | h
                             · exact absurd h hlo
                             · exact h
    rw [if_neg hlo, Nat.min_eq_left (by omega)]
    have e : (sw + 255) % 256 = sw - 1 := by omega
    rw [e]
    obtain ⟨m, hm, hcopy⟩ := copyHigh_spec lw sw hl0 hlt hs1 t 256 (sw - 1) (fun _ => 0) (by omega) (by omega) (by omega) (by intro a h1 h2; omega)
    refine ⟨m, hm, value_of_holds lo lw v m (fun k hk => ?_)⟩
    have hk' := hconv k (by omega)
    cases lo with
    | little => exact absurd rfl hlo
    | big =>
      simp only [address] at hk' ⊢
      rw [hcopy _ (by omega), ← hk']
      congr 1; omega
    | middle =>
      have he1 := hlm rfl
      have he2 := hl2 rfl
      simp only [address] at hk' ⊢
      rw [hcopy _ (partner_lt _ lw he2 (by omega)), ← hk']
      congr 1
      unfold partner
      split <;> split <;> omega

/-- **C41 fails.**  On a machine that is not little-endian the program reads and writes out of range when it reads an integer that is not wider than its own — in
particular one it has written itself: the comparison of the unsigned loop counter with zero is always true. -/
theorem C41_high_fails (so lo : Order) (sw lw : Nat) (temp : Nat → Nat) (hlo : lo ≠ .little) (hs0 : 0 < sw) (hs1 : sw < 255) (hle : sw ≤ lw) :
    readIValue lo lw so sw temp = none := by
  unfold readIValue
  simp only
  rw [if_neg hlo, Nat.min_eq_right hle]
  generalize convertEndianess sw so lo temp = t
  have key : ∀ f i b, copyHigh lw sw sw t f i b = none := by
    intro f
    induction f with
    | zero => intro i b; rfl
    | succ f ih =>
      intro i b
      rw [copyHigh, if_pos (by omega)]
      split
      · exact ih _ _
      · rfl
  exact key _ _ _

/-- The byte order that is written in the header of a file is the one that is read. -/
theorem C41_order (o : Order) : readOrder (writeOrder o) = some o := by cases o <;> rfl

/-- The hypotheses are met: the number 258 in a big-endian file of 8 bytes, read by a little-endian reader with 4 bytes. -/
example : ∃ m, readIValue .little 4 .big 8 (fun a => if a = 6 then 1 else if a = 7 then 2 else 0) = some m ∧ value .little 4 m = 258 := by
  refine C41_integers_partial .big .little 8 4 258 _ ⟨by omega, by omega, by simp⟩ ⟨by omega, by omega, by simp⟩ (by simp) (by decide) ?_ (Or.inl rfl)
  intro k hk
  have : k = 0 ∨ k = 1 ∨ k = 2 ∨ k = 3 ∨ k = 4 ∨ k = 5 ∨ k = 6 ∨ k = 7 := by omega
  rcases this with rfl | rfl | rfl | rfl | rfl | rfl | rfl | rfl <;> decide

end Verif.Binary
