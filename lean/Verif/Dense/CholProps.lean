import Verif.Dense.CholModel
import Mathlib.Algebra.BigOperators.Intervals
import Mathlib.Tactic.Ring
import Mathlib.Tactic.FieldSimp
import Mathlib.Tactic.LinearCombination

/-!
# C50: storage of symmetric matrices; C37: `CholeskySolve`
-/

namespace Verif.Dense

open Finset

/-- The address where the row `i` of the upper triangle begins. -/
def rowStart (n : Nat) : Nat → Nat
  | 0 => 0
  | i + 1 => rowStart n i + (n - i)

theorem rowStart_eq (n i : Nat) (hi : i ≤ n) : 2 * rowStart n i + i * i = 2 * (n * i) + i := by
  induction i with
  | zero => simp [rowStart]
  | succ i ih =>
    have := ih (by omega)
    rw [rowStart]
    have e1 : (i + 1) * (i + 1) = i * i + 2 * i + 1 := by ring
    have e2 : n * (i + 1) = n * i + n := by ring
    omega

theorem symIdx_upper (n i j : Nat) (hij : i ≤ j) (hj : j < n) : symIdx n i j = rowStart n i + (j - i) := by
  unfold symIdx
  rw [if_neg (by omega)]
  have h1 := rowStart_eq n i (by omega)
  have h2 : i * (i + 1) = i * i + i := by ring
  have h3 : i * i + i = 2 * ((i * i + i) / 2) := by
    have : 2 ∣ i * i + i := by
      rw [← h2]; exact (Nat.even_mul_succ_self i).two_dvd
    omega
  have h4 : i * i ≤ n * i := Nat.mul_le_mul_right i (by omega)
  rw [h2]
  omega

theorem symIdx_comm (n i j : Nat) : symIdx n i j = symIdx n j i := by
  unfold symIdx
  rcases Nat.lt_trichotomy i j with h | h | h
  · rw [if_neg (by omega), if_pos h]
  · subst h; rfl
  · rw [if_pos h, if_neg (by omega)]

theorem rowStart_mono (n i j : Nat) (h : i ≤ j) : rowStart n i ≤ rowStart n j := by
  induction j with
  | zero => have : i = 0 := by omega
            subst this; exact le_refl _
  | succ j ih =>
    rcases Nat.eq_or_lt_of_le h with h | h
    · subst h; exact le_refl _
    · exact le_trans (ih (by omega)) (by rw [rowStart]; omega)

theorem symIdx_inj_upper (n i j i' j' : Nat) (hij : i ≤ j) (hj : j < n) (hij' : i' ≤ j') (hj' : j' < n)
    (h : symIdx n i j = symIdx n i' j') : i = i' ∧ j = j' := by
  rw [symIdx_upper n i j hij hj, symIdx_upper n i' j' hij' hj'] at h
  have s1 : rowStart n (i + 1) = rowStart n i + (n - i) := rfl
  have s2 : rowStart n (i' + 1) = rowStart n i' + (n - i') := rfl
  rcases Nat.lt_trichotomy i i' with hlt | he | hlt
  · have := rowStart_mono n (i + 1) i' hlt; omega
  · subst he; omega
  · have := rowStart_mono n (i' + 1) i hlt; omega

/-- **C50.**  The elements `(i,j)` and `(j,i)` of a symmetric matrix are stored in the same place; elements that are not mirror images of
each other are stored in different places; all places are inside the array of `n(n+1)/2` numbers, and every place is used. -/
theorem C50_symmetric_storage (n : Nat) :
    (∀ i j, symIdx n i j = symIdx n j i) ∧
    (∀ i j i' j', i < n → j < n → i' < n → j' < n → symIdx n i j = symIdx n i' j' → (i = i' ∧ j = j') ∨ (i = j' ∧ j = i')) ∧
    (∀ i j, i < n → j < n → symIdx n i j < n * (n + 1) / 2) ∧
    (∀ a, a < n * (n + 1) / 2 → ∃ i j, i ≤ j ∧ j < n ∧ symIdx n i j = a) := by
  have htot : n * (n + 1) / 2 = rowStart n n := by
    have h1 := rowStart_eq n n (le_refl n)
    have h2 : n * (n + 1) = n * n + n := by ring
    omega
  refine ⟨symIdx_comm n, ?_, ?_, ?_⟩
  · intro i j i' j' hi hj hi' hj' h
    rcases Nat.le_total i j with h1 | h1 <;> rcases Nat.le_total i' j' with h2 | h2
    · exact Or.inl (symIdx_inj_upper n i j i' j' h1 hj h2 hj' h)
    · rw [symIdx_comm n i' j'] at h
      exact Or.inr (symIdx_inj_upper n i j j' i' h1 hj h2 hi' h)
    · rw [symIdx_comm n i j] at h
      have := symIdx_inj_upper n j i i' j' h1 hi h2 hj' h
      exact Or.inr ⟨this.2, this.1⟩
    · rw [symIdx_comm n i j, symIdx_comm n i' j'] at h
      have := symIdx_inj_upper n j i j' i' h1 hi h2 hi' h
      exact Or.inl ⟨this.2, this.1⟩
  · have key : ∀ i j, i ≤ j → j < n → symIdx n i j < n * (n + 1) / 2 := by
      intro i j hij hj
      rw [htot, symIdx_upper n i j hij hj]
      have := rowStart_mono n (i + 1) n (by omega)
      rw [rowStart] at this
      omega
    intro i j hi hj
    rcases Nat.le_total i j with h | h
    · exact key i j h hj
    · rw [symIdx_comm]; exact key j i h hi
  · intro a ha
    rw [htot] at ha
    have key : ∀ i, i ≤ n → a < rowStart n i → ∃ i j, i ≤ j ∧ j < n ∧ symIdx n i j = a := by
      intro i
      induction i with
      | zero => intro _ h; simp [rowStart] at h
      | succ i ih =>
        intro hi h
        by_cases hlt : a < rowStart n i
        · exact ih (by omega) hlt
        · rw [rowStart] at h
          exact ⟨i, i + (a - rowStart n i), by omega, by omega, by rw [symIdx_upper n _ _ (by omega) (by omega)]; omega⟩
    exact key n (le_refl n) ha

theorem symGet_comm {K : Type} (n : Nat) (s : Nat → K) (i j : Nat) : symGet n s i j = symGet n s j i := by
  unfold symGet; rw [symIdx_comm]

theorem symGet_set {K : Type} (n : Nat) (s : Nat → K) (i j i' j' : Nat) (v : K) (hj : j ≤ i) (hi : i < n) (hj' : j' ≤ i')
    (hi' : i' < n) : symGet n (symSet n s i j v) i' j' = if i' = i ∧ j' = j then v else symGet n s i' j' := by
  unfold symGet symSet updV
  by_cases h : i' = i ∧ j' = j
  · obtain ⟨rfl, rfl⟩ := h; simp
  · rw [if_neg h, if_neg]
    intro he
    rw [symIdx_comm n i' j', symIdx_comm n i j] at he
    have := symIdx_inj_upper n j' i' j i hj' hi' hj hi he
    exact h ⟨this.2, this.1⟩

theorem symAssign_eq (n : Nat) (A : Nat → Nat → ℝ) (s : Nat → ℝ) (i j : Nat) (hj : j ≤ i) (hi : i < n) :
    symGet n (symAssign n A s) i j = A j i := by
  unfold symAssign
  refine (forRange_rule (fun q (t : Nat → ℝ) => ∀ i j, j ≤ i → i < n → j < q → symGet n t i j = A j i) 0 n (Nat.zero_le _) _ s
    (fun i j _ _ h => by omega) ?_) i j hj hi (by omega)
  intro q t _ hq ht
  have H := forRange_rule (fun c (t' : Nat → ℝ) => ∀ i j, j ≤ i → i < n → (j < q ∨ (j = q ∧ i < c)) → symGet n t' i j = A j i) q n
    (by omega) (fun j s => symSet n s q j (A q j)) t ?_ ?_
  · intro i j h1 h2 h3
    exact H i j h1 h2 (by omega)
  · intro i j h1 h2 h3
    exact ht i j h1 h2 (by omega)
  · intro c t' hc1 hc2 ht' i j h1 h2 h3
    have : symSet n t' q c (A q c) = symSet n t' c q (A q c) := by unfold symSet; rw [symIdx_comm]
    rw [this, symGet_set n t' c q i j _ hc1 hc2 h1 h2]
    by_cases h : i = c ∧ j = q
    · obtain ⟨rfl, rfl⟩ := h; simp
    · rw [if_neg h]; exact ht' i j h1 h2 (by omega)

theorem cholDivide_eq (n k : Nat) (hk : k < n) (s : Nat → ℝ) (i j : Nat) (hj : j ≤ i) (hi : i < n) :
    symGet n (cholDivide n k s) i j = if j = k ∧ k < i then symGet n s i k / symGet n s k k else symGet n s i j := by
  unfold cholDivide
  refine (forRange_rule (fun q (t : Nat → ℝ) => ∀ i j, j ≤ i → i < n → symGet n t i j =
    if j = k ∧ k < i ∧ i < q then symGet n s i k / symGet n s k k else symGet n s i j) (k + 1) n (by omega) _ s ?_ ?_ i j hj hi).trans ?_
  · intro i j _ _; rw [if_neg (by omega)]
  · intro q t hq1 hq2 ht i j h1 h2
    have e1 := ht q k (by omega) hq2
    rw [if_neg (by omega)] at e1
    have e2 := ht k k (le_refl k) hk
    rw [if_neg (by omega)] at e2
    rw [symGet_set n t q k i j _ (by omega) hq2 h1 h2, e1, e2]
    by_cases h : i = q ∧ j = k
    · obtain ⟨rfl, rfl⟩ := h
      rw [if_pos ⟨rfl, rfl⟩, if_pos (by omega)]
    · rw [if_neg h, ht i j h1 h2]
      have : (j = k ∧ k < i ∧ i < q + 1) = (j = k ∧ k < i ∧ i < q) := by apply propext; omega
      simp only [this]
  · have : (j = k ∧ k < i ∧ i < n) = (j = k ∧ k < i) := by apply propext; omega
    simp only [this]

theorem cholUpdate_eq (n k : Nat) (hk : k < n) (s : Nat → ℝ) (i j : Nat) (hj : j ≤ i) (hi : i < n) :
    symGet n (cholUpdate n k s) i j = if k < j then symGet n s i j - symGet n s i k * symGet n s j k else symGet n s i j := by
  unfold cholUpdate
  refine (forRange_rule (fun q (t : Nat → ℝ) => ∀ i j, j ≤ i → i < n → symGet n t i j =
    if k < j ∧ j < q then symGet n s i j - symGet n s i k * symGet n s j k else symGet n s i j) (k + 1) n (by omega) _ s ?_ ?_
    i j hj hi).trans ?_
  · intro i j _ _; rw [if_neg (by omega)]
  · intro q t hq1 hq2 ht i j h1 h2
    refine (forRange_rule (fun c (t' : Nat → ℝ) => ∀ i j, j ≤ i → i < n → symGet n t' i j =
      if (k < j ∧ j < q) ∨ (j = q ∧ i < c) then symGet n s i j - symGet n s i k * symGet n s j k else symGet n s i j) q n (by omega) _ t
      ?_ ?_ i j h1 h2).trans ?_
    · intro i j h1 h2
      rw [ht i j h1 h2]
      have : (k < j ∧ j < q ∨ j = q ∧ i < q) = (k < j ∧ j < q) := by apply propext; omega
      simp only [this]
    · intro c t' hc1 hc2 ht' i j h1 h2
      have e1 := ht' c q hc1 hc2
      rw [if_neg (by omega)] at e1
      have e2 := ht' c k (by omega) hc2
      rw [if_neg (by omega)] at e2
      have e3 := ht' q k (by omega) hq2
      rw [if_neg (by omega)] at e3
      rw [symGet_set n t' c q i j _ hc1 hc2 h1 h2, e1, e2, e3]
      by_cases h : i = c ∧ j = q
      · obtain ⟨rfl, rfl⟩ := h
        rw [if_pos ⟨rfl, rfl⟩, if_pos (by omega)]
      · rw [if_neg h, ht' i j h1 h2]
        have : (k < j ∧ j < q ∨ j = q ∧ i < c + 1) = (k < j ∧ j < q ∨ j = q ∧ i < c) := by apply propext; omega
        simp only [this]
    · have : (k < j ∧ j < q ∨ j = q ∧ i < n) = (k < j ∧ j < q + 1) := by apply propext; omega
      simp only [this]
  · have : (k < j ∧ j < n) = (k < j) := by apply propext; omega
    simp only [this]

/-- What the factorisation keeps after `q` steps. -/
def CInv (n : Nat) (A : Nat → Nat → ℝ) (q : Nat) (s : Nat → ℝ) : Prop :=
  (∀ i j, j ≤ i → i < n → A i j = ∑ t ∈ range (min q (j + 1)), symGet n s i t * symGet n s j t + (if q ≤ j then symGet n s i j else 0)) ∧
  ∀ t, t < q → symGet n s t t ≠ 0

theorem chol_new (n k : Nat) (hk : k < n) (s : Nat → ℝ) (d : ℝ) (i j : Nat) (hj : j ≤ i) (hi : i < n) :
    symGet n (cholUpdate n k (cholDivide n k (symSet n s k k d))) i j =
      if j = k then (if i = k then d else symGet n s i k / d)
      else if k < j then symGet n s i j - symGet n s i k / d * (symGet n s j k / d) else symGet n s i j := by
  have hset : ∀ i j, j ≤ i → i < n → symGet n (symSet n s k k d) i j = if i = k ∧ j = k then d else symGet n s i j :=
    fun i j h1 h2 => symGet_set n s k k i j d (le_refl k) hk h1 h2
  have hdiv : ∀ i j, j ≤ i → i < n → symGet n (cholDivide n k (symSet n s k k d)) i j =
      if j = k then (if i = k then d else symGet n s i k / d) else symGet n s i j := by
    intro i j h1 h2
    rw [cholDivide_eq n k hk _ i j h1 h2]
    by_cases hjk : j = k
    · subst hjk
      by_cases hik : i = j
      · subst hik; simp [hset i i (le_refl i) h2]
      · rw [if_pos ⟨rfl, by omega⟩, hset i j h1 h2, if_neg (by omega), hset j j (le_refl j) hk, if_pos ⟨rfl, rfl⟩, if_pos rfl, if_neg hik]
    · rw [if_neg (by omega), hset i j h1 h2, if_neg (by omega), if_neg hjk]
  rw [cholUpdate_eq n k hk _ i j hj hi]
  by_cases hjk : k < j
  · rw [if_pos hjk, hdiv i j hj hi, if_neg (by omega), hdiv i k (by omega) hi, if_pos rfl, if_neg (by omega),
      hdiv j k (by omega) (by omega), if_pos rfl, if_neg (by omega), if_neg (by omega), if_pos hjk]
  · rw [if_neg hjk, hdiv i j hj hi, if_neg hjk]

theorem cholStep_spec (n k : Nat) (hk : k < n) (A : Nat → Nat → ℝ) (s s' : Nat → ℝ) (h : CInv n A k s)
    (hs : cholStep n k s = some s') : CInv n A (k + 1) s' := by
  unfold cholStep at hs
  split at hs
  · cases hs
  · rename_i hneg
    simp only at hs
    split at hs
    · cases hs
    · rename_i hsm
      simp only [Option.some.injEq] at hs
      have hkk : symGet n (symSet n s k k (Real.sqrt (symGet n s k k))) k k = Real.sqrt (symGet n s k k) := by
        rw [symGet_set n s k k k k _ (le_refl k) hk (le_refl k) hk]; simp
      rw [hkk] at hsm
      have hd : Real.sqrt (symGet n s k k) ≠ 0 := by
        intro h0; apply hsm; rw [h0]; norm_num
      have hsq : Real.sqrt (symGet n s k k) * Real.sqrt (symGet n s k k) = symGet n s k k := Real.mul_self_sqrt (not_lt.1 hneg)
      generalize hdd : Real.sqrt (symGet n s k k) = d at *
      have hnew : ∀ i j, j ≤ i → i < n → symGet n s' i j =
          if j = k then (if i = k then d else symGet n s i k / d)
          else if k < j then symGet n s i j - symGet n s i k / d * (symGet n s j k / d) else symGet n s i j := by
        intro i j h1 h2
        rw [← hs]; exact chol_new n k hk s d i j h1 h2
      refine ⟨fun i j hj hi => ?_, fun t ht => ?_⟩
      · rw [h.1 i j hj hi]
        rcases Nat.lt_trichotomy j k with hlt | he | hgt
        · rw [Nat.min_eq_right (by omega), Nat.min_eq_right (by omega), if_neg (by omega), if_neg (by omega)]
          congr 1
          apply sum_congr rfl
          intro t ht
          rw [mem_range] at ht
          rw [hnew i t (by omega) hi, hnew j t (by omega) (by omega), if_neg (by omega), if_neg (by omega), if_neg (by omega),
            if_neg (by omega)]
        · subst he
          rw [Nat.min_eq_left (by omega), Nat.min_self, sum_range_succ, if_pos (le_refl j), if_neg (by omega), add_zero]
          congr 1
          · apply sum_congr rfl
            intro t ht
            rw [mem_range] at ht
            rw [hnew i t (by omega) hi, hnew j t (by omega) (by omega), if_neg (by omega), if_neg (by omega), if_neg (by omega),
              if_neg (by omega)]
          · rw [hnew i j hj hi, hnew j j (le_refl j) hk, if_pos rfl, if_pos rfl, if_pos rfl]
            by_cases hij : i = j
            · subst hij; rw [if_pos rfl, hsq]
            · rw [if_neg hij]; field_simp
        · rw [Nat.min_eq_left (by omega), Nat.min_eq_left (by omega), sum_range_succ, if_pos (by omega), if_pos (by omega)]
          have hsum : ∑ t ∈ range k, symGet n s i t * symGet n s j t = ∑ t ∈ range k, symGet n s' i t * symGet n s' j t := by
            apply sum_congr rfl
            intro t ht
            rw [mem_range] at ht
            rw [hnew i t (by omega) hi, hnew j t (by omega) (by omega), if_neg (by omega), if_neg (by omega), if_neg (by omega),
              if_neg (by omega)]
          rw [hsum, hnew i k (by omega) hi, hnew j k (by omega) (by omega), hnew i j hj hi, if_pos rfl, if_neg (by omega), if_pos rfl,
            if_neg (by omega), if_neg (by omega), if_pos hgt]
          ring
      · rw [hnew t t (le_refl t) (by omega)]
        by_cases htk : t = k
        · subst htk; rw [if_pos rfl, if_pos rfl]; exact hd
        · rw [if_neg htk, if_neg (by omega)]; exact h.2 t (by omega)

theorem cholLoop_spec (n k c : Nat) (hc : k + c = n) (A : Nat → Nat → ℝ) (s s' : Nat → ℝ) (h : CInv n A k s)
    (hs : cholLoop n k c s = .ok s') : CInv n A n s' := by
  induction c generalizing k s with
  | zero =>
    simp only [cholLoop, Except.ok.injEq] at hs
    have : k = n := by omega
    subst this; subst hs; exact h
  | succ c ih =>
    rw [cholLoop] at hs
    cases he : cholStep n k s with
    | none => rw [he] at hs; cases hs
    | some s1 => rw [he] at hs; exact ih (k + 1) (by omega) s1 (cholStep_spec n k (by omega) A s s1 h he) hs

theorem cholForward_spec (n l : Nat) (s : Nat → ℝ) (hd : ∀ t, t < n → symGet n s t t ≠ 0) (B : Nat → Nat → ℝ) (i k : Nat) (hi : i < n)
    (hk : k < l) :
    ∑ j ∈ range (i + 1), symGet n s i j * cholForward n l s B j k = B i k := by
  have H := forRange_rule (fun q (Y : Nat → Nat → ℝ) =>
      (∀ i k, i < q → k < l → ∑ j ∈ range (i + 1), symGet n s i j * Y j k = B i k) ∧ ∀ i k, q ≤ i → Y i k = B i k) 0 n (Nat.zero_le _)
    (fun i Y => forRange 0 l (fun k Y =>
      let Y := forRange 0 i (fun j Y => upd Y i k (Y i k - Y j k * symGet n s j i)) Y
      upd Y i k (Y i k / symGet n s i i)) Y) B ⟨fun i k h => by omega, fun _ _ _ => rfl⟩ ?_
  · exact H.1 i k hi hk
  · intro q Y _ hq ⟨h1, h2⟩
    have H2 := forRange_rule (fun c (Y' : Nat → Nat → ℝ) => (∀ r k, r ≠ q → Y' r k = Y r k) ∧
        (∀ k, k < c → ∑ j ∈ range q, symGet n s q j * Y j k + symGet n s q q * Y' q k = B q k) ∧ ∀ k, c ≤ k → Y' q k = Y q k) 0 l
      (Nat.zero_le _) (fun k Y =>
        let Y := forRange 0 q (fun j Y => upd Y q k (Y q k - Y j k * symGet n s j q)) Y
        upd Y q k (Y q k / symGet n s q q)) Y ⟨fun _ _ _ => rfl, fun k h => by omega, fun _ _ => rfl⟩ ?_
    · refine ⟨fun i k hi hk => ?_, fun i k hi => ?_⟩
      · rcases Nat.lt_or_eq_of_le (Nat.lt_succ_iff.1 hi) with hlt | he
        · rw [← h1 i k hlt hk]
          apply sum_congr rfl
          intro j hj
          rw [mem_range] at hj
          rw [H2.1 j k (by omega)]
        · subst he
          rw [sum_range_succ, ← H2.2.1 k hk]
          congr 1
          apply sum_congr rfl
          intro j hj
          rw [mem_range] at hj
          rw [H2.1 j k (by omega)]
      · rw [H2.1 i k (by omega)]; exact h2 i k (by omega)
    · intro c Y' _ hc ⟨g1, g2, g3⟩
      have H3 := forRange_rule (fun e (Z : Nat → Nat → ℝ) => Z q c = B q c - ∑ j ∈ range e, symGet n s q j * Y j c ∧
          ∀ r k, ¬(r = q ∧ k = c) → Z r k = Y' r k) 0 q (Nat.zero_le _) (fun j Y => upd Y q c (Y q c - Y j c * symGet n s j q)) Y'
        ⟨by rw [g3 c (le_refl c), h2 q c (le_refl q)]; simp, fun _ _ _ => rfl⟩ ?_
      · simp only
        generalize forRange 0 q (fun j Y => upd Y q c (Y q c - Y j c * symGet n s j q)) Y' = Z at H3 ⊢
        refine ⟨fun r k hr => ?_, fun k hk => ?_, fun k hk => ?_⟩
        · simp only [upd, hr, false_and, if_false]
          rw [H3.2 r k (by omega)]; exact g1 r k hr
        · by_cases hkc : k = c
          · subst hkc
            simp only [upd, and_self, if_true]
            rw [H3.1, mul_div_cancel₀ _ (hd q hq)]
            ring
          · simp only [upd, hkc, and_false, if_false]
            rw [H3.2 q k (by omega)]; exact g2 k (by omega)
        · have hkc : k ≠ c := by omega
          simp only [upd, hkc, and_false, if_false]
          rw [H3.2 q k (by omega)]; exact g3 k (by omega)
      · intro j Z _ hj ⟨z1, z2⟩
        refine ⟨?_, fun r k h => ?_⟩
        · simp only [upd, and_self, if_true]
          rw [z1, z2 j c (by omega), g1 j c (by omega), sum_range_succ, symGet_comm n s j q]
          ring
        · simp only [upd, h, if_false]; exact z2 r k h

theorem cholBack_spec (n l : Nat) (s : Nat → ℝ) (hd : ∀ t, t < n → symGet n s t t ≠ 0) (Y : Nat → Nat → ℝ) (i k : Nat) (hi : i < n)
    (hk : k < l) :
    ∑ j ∈ Ico i n, symGet n s i j * cholBack n l s Y j k = Y i k := by
  have H := forDown_rule (fun q (X : Nat → Nat → ℝ) =>
      (∀ i k, q ≤ i → i < n → k < l → ∑ j ∈ Ico i n, symGet n s i j * X j k = Y i k) ∧ ∀ i k, i < q → X i k = Y i k) n
    (fun i X => forRange 0 l (fun k X =>
      let X := forDown (fun d X => upd X i k (X i k - X (i + 1 + d) k * symGet n s i (i + 1 + d))) (n - (i + 1)) X
      upd X i k (X i k / symGet n s i i)) X) Y ⟨fun i k h h' => by omega, fun _ _ _ => rfl⟩ ?_
  · exact H.1 i k (Nat.zero_le i) hi hk
  · intro q X hq ⟨h1, h2⟩
    have H2 := forRange_rule (fun c (X' : Nat → Nat → ℝ) => (∀ r k, r ≠ q → X' r k = X r k) ∧
        (∀ k, k < c → symGet n s q q * X' q k + ∑ j ∈ Ico (q + 1) n, symGet n s q j * X j k = Y q k) ∧ ∀ k, c ≤ k → X' q k = X q k) 0 l
      (Nat.zero_le _) (fun k X =>
        let X := forDown (fun d X => upd X q k (X q k - X (q + 1 + d) k * symGet n s q (q + 1 + d))) (n - (q + 1)) X
        upd X q k (X q k / symGet n s q q)) X ⟨fun _ _ _ => rfl, fun k h => by omega, fun _ _ => rfl⟩ ?_
    · refine ⟨fun i k hi hi' hk => ?_, fun i k hi => ?_⟩
      · rcases Nat.eq_or_lt_of_le hi with he | hlt
        · subst he
          rw [sum_eq_sum_Ico_succ_bot hi', ← H2.2.1 k hk]
          congr 1
          apply sum_congr rfl
          intro j hj
          rw [mem_Ico] at hj
          rw [H2.1 j k (by omega)]
        · rw [← h1 i k hlt hi' hk]
          apply sum_congr rfl
          intro j hj
          rw [mem_Ico] at hj
          rw [H2.1 j k (by omega)]
      · rw [H2.1 i k (by omega)]; exact h2 i k (by omega)
    · intro c X' _ hc ⟨g1, g2, g3⟩
      have H3 := forDown_rule (fun e (Z : Nat → Nat → ℝ) => Z q c = Y q c - ∑ j ∈ Ico (q + 1 + e) n, symGet n s q j * X j c ∧
          ∀ r k, ¬(r = q ∧ k = c) → Z r k = X' r k) (n - (q + 1))
        (fun d X => upd X q c (X q c - X (q + 1 + d) c * symGet n s q (q + 1 + d))) X'
        ⟨by rw [g3 c (le_refl c), h2 q c (by omega)]; rw [show q + 1 + (n - (q + 1)) = n by omega]; simp, fun _ _ _ => rfl⟩ ?_
      · simp only
        generalize forDown (fun d X => upd X q c (X q c - X (q + 1 + d) c * symGet n s q (q + 1 + d))) (n - (q + 1)) X' = Z at H3 ⊢
        refine ⟨fun r k hr => ?_, fun k hk => ?_, fun k hk => ?_⟩
        · simp only [upd, hr, false_and, if_false]
          rw [H3.2 r k (by omega)]; exact g1 r k hr
        · by_cases hkc : k = c
          · subst hkc
            simp only [upd, and_self, if_true]
            rw [H3.1, mul_div_cancel₀ _ (hd q hq)]
            simp
          · simp only [upd, hkc, and_false, if_false]
            rw [H3.2 q k (by omega)]; exact g2 k (by omega)
        · have hkc : k ≠ c := by omega
          simp only [upd, hkc, and_false, if_false]
          rw [H3.2 q k (by omega)]; exact g3 k (by omega)
      · intro d Z hdn ⟨z1, z2⟩
        refine ⟨?_, fun r k h => ?_⟩
        · simp only [upd, and_self, if_true]
          rw [z1, z2 (q + 1 + d) c (by omega), g1 (q + 1 + d) c (by omega), sum_eq_sum_Ico_succ_bot (a := q + 1 + d) (by omega)]
          rw [show q + 1 + (d + 1) = q + 1 + d + 1 by omega]
          ring
        · simp only [upd, h, if_false]; exact z2 r k h

/-- **C37.**  For every symmetric matrix `A` and all right-hand sides `B`: if `CholeskySolve` reports success, its result satisfies
`A X = B` — whatever the static work matrix contained before. -/
theorem C37_cholesky (n l : Nat) (A B X : Nat → Nat → ℝ) (s0 : Nat → ℝ) (hsym : ∀ i j, i < n → j < n → A i j = A j i)
    (h : cholSolve n l A B s0 = .ok X) (i k : Nat) (hi : i < n) (hk : k < l) :
    ∑ j ∈ range n, A i j * X j k = B i k := by
  unfold cholSolve at h
  cases he : cholLoop n 0 n (symAssign n A s0) with
  | error e => rw [he] at h; cases h
  | ok s =>
    rw [he] at h
    simp only [Except.ok.injEq] at h
    have hinit : CInv n A 0 (symAssign n A s0) := by
      refine ⟨fun i j hj hi => ?_, fun t ht => by omega⟩
      rw [Nat.zero_min, if_pos (Nat.zero_le j), symAssign_eq n A s0 i j hj hi, hsym i j hi (by omega)]
      simp
    have hC := cholLoop_spec n 0 n (by omega) A _ s hinit he
    have hfac : ∀ i j, i < n → j < n → A i j = ∑ t ∈ range n, (if t ≤ i then symGet n s i t else 0) * (if t ≤ j then symGet n s j t else 0) := by
      have low : ∀ i j, j ≤ i → i < n → A i j = ∑ t ∈ range n, (if t ≤ i then symGet n s i t else 0) * (if t ≤ j then symGet n s j t else 0) := by
        intro i j hj hi
        rw [hC.1 i j hj hi, Nat.min_eq_right (by omega), if_neg (by omega), add_zero]
        have hsub : range (j + 1) ⊆ range n := by intro t; simp only [mem_range]; omega
        rw [← sum_subset hsub]
        · apply sum_congr rfl
          intro t ht
          rw [mem_range] at ht
          rw [if_pos (by omega), if_pos (by omega)]
        · intro t _ ht
          rw [mem_range] at ht
          rw [if_neg (show ¬ t ≤ j by omega), mul_zero]
      intro i j hi hj
      rcases Nat.le_total j i with hle | hle
      · exact low i j hle hi
      · rw [hsym i j hi hj, low j i hle hj]
        apply sum_congr rfl
        intro t _
        ring
    have hX : ∀ t, t < n → ∑ j ∈ range n, (if t ≤ j then symGet n s j t else 0) * X j k = cholForward n l s B t k := by
      intro t ht
      rw [← cholBack_spec n l s hC.2 (cholForward n l s B) t k ht hk, h]
      have hsub : Ico t n ⊆ range n := by intro j; simp only [mem_range, mem_Ico]; omega
      rw [← sum_subset hsub]
      · apply sum_congr rfl
        intro j hj
        rw [mem_Ico] at hj
        rw [if_pos hj.1, symGet_comm]
      · intro j hj hj'
        rw [mem_range] at hj
        rw [mem_Ico] at hj'
        rw [if_neg (by omega), zero_mul]
    calc ∑ j ∈ range n, A i j * X j k
        = ∑ j ∈ range n, ∑ t ∈ range n, (if t ≤ i then symGet n s i t else 0) * ((if t ≤ j then symGet n s j t else 0) * X j k) := by
          apply sum_congr rfl
          intro j hj
          rw [mem_range] at hj
          rw [hfac i j hi hj, sum_mul]
          apply sum_congr rfl
          intro t _
          ring
      _ = ∑ t ∈ range n, (if t ≤ i then symGet n s i t else 0) * cholForward n l s B t k := by
          rw [sum_comm]
          apply sum_congr rfl
          intro t ht
          rw [mem_range] at ht
          rw [← hX t ht, mul_sum]
      _ = B i k := by
          rw [← cholForward_spec n l s hC.2 B i k hi hk]
          have hsub : range (i + 1) ⊆ range n := by intro t; simp only [mem_range]; omega
          rw [← sum_subset hsub]
          · apply sum_congr rfl
            intro t ht
            rw [mem_range] at ht
            rw [if_pos (by omega)]
          · intro t _ ht
            rw [mem_range] at ht
            rw [if_neg (by omega), zero_mul]

/-- **C37, success.**  If `A = G Gᵀ` with a lower triangular `G` whose diagonal elements are at least `1e-24`, then `CholeskySolve` reports
success. -/
theorem C37_succeeds (n l : Nat) (A B G : Nat → Nat → ℝ) (s0 : Nat → ℝ)
    (hG : ∀ i j, i < n → j < n → A i j = ∑ t ∈ range n, G i t * G j t) (hlow : ∀ i j, i < j → j < n → G i j = 0)
    (hd : ∀ i, i < n → 1 / 10 ^ 24 ≤ G i i) : ∃ X, cholSolve n l A B s0 = .ok X := by
  have key : ∀ c k s, k + c = n →
      (∀ i j, j ≤ i → i < n → symGet n s i j = if j < k then G i j else ∑ t ∈ Ico k (j + 1), G i t * G j t) →
      ∃ s', cholLoop n k c s = .ok s' := by
    intro c
    induction c with
    | zero => intro k s _ _; exact ⟨s, rfl⟩
    | succ c ih =>
      intro k s hk hs
      have hkn : k < n := by omega
      have hdk := hd k hkn
      have hpos : (0 : ℝ) < G k k := lt_of_lt_of_le (by norm_num) hdk
      have hkk : symGet n s k k = G k k * G k k := by
        rw [hs k k (le_refl k) hkn, if_neg (lt_irrefl k)]; simp
      have hsq : Real.sqrt (symGet n s k k) = G k k := by rw [hkk]; exact Real.sqrt_mul_self hpos.le
      have hstep : cholStep n k s = some (cholUpdate n k (cholDivide n k (symSet n s k k (G k k)))) := by
        unfold cholStep
        rw [if_neg (by rw [hkk]; exact not_lt.2 (mul_self_nonneg _))]
        simp only
        have e := symGet_set n s k k k k (G k k) (le_refl k) hkn (le_refl k) hkn
        rw [if_pos ⟨rfl, rfl⟩] at e
        rw [hsq, e, abs_of_pos hpos, if_neg (not_lt.2 hdk)]
      rw [cholLoop, hstep]
      apply ih (k + 1) _ (by omega)
      intro i j hj hi
      rw [chol_new n k hkn s (G k k) i j hj hi]
      rcases Nat.lt_trichotomy j k with hlt | he | hgt
      · rw [if_neg (by omega), if_neg (by omega), hs i j hj hi, if_pos hlt, if_pos (by omega)]
      · subst he
        rw [if_pos rfl]
        by_cases hij : i = j
        · subst hij; rw [if_pos rfl, if_pos (by omega)]
        · rw [if_neg hij, hs i j hj hi, if_neg (by omega), if_pos (by omega)]
          simp only [Nat.Ico_succ_singleton, sum_singleton]
          exact mul_div_cancel_right₀ _ hpos.ne'
      · have hik : symGet n s i k = G i k * G k k := by
          rw [hs i k (by omega) hi, if_neg (by omega)]; simp
        have hjk : symGet n s j k = G j k * G k k := by
          rw [hs j k (by omega) (by omega), if_neg (by omega)]; simp
        rw [if_neg (by omega), if_pos hgt, if_neg (by omega), hik, hjk, mul_div_cancel_right₀ _ hpos.ne', mul_div_cancel_right₀ _ hpos.ne',
          hs i j hj hi, if_neg (by omega), sum_eq_sum_Ico_succ_bot (show k < j + 1 by omega)]
        ring
  obtain ⟨s', hs'⟩ := key n 0 (symAssign n A s0) (by omega) (by
    intro i j hj hi
    rw [symAssign_eq n A s0 i j hj hi, if_neg (by omega), hG j i (by omega) hi]
    have hsub : Ico 0 (j + 1) ⊆ range n := by intro t; simp only [mem_range, mem_Ico]; omega
    rw [← sum_subset hsub]
    · apply sum_congr rfl
      intro t _
      ring
    · intro t ht ht'
      rw [mem_range] at ht
      rw [mem_Ico] at ht'
      rw [hlow j t (by omega) ht, zero_mul])
  unfold cholSolve
  rw [hs']
  exact ⟨_, rfl⟩

/-- The hypotheses are met: `[4 2; 2 5] = [2 0; 1 2] [2 0; 1 2]ᵀ` is symmetric and `CholeskySolve` succeeds for it. -/
example (B : Nat → Nat → ℝ) (s0 : Nat → ℝ) :
    ∃ X, cholSolve 2 1 (fun i j => if i = j then (if i = 0 then 4 else 5) else 2) B s0 = .ok X := by
  refine C37_succeeds 2 1 _ B (fun i j => if i = j then 2 else if i = 0 then 0 else 1) s0 ?_ ?_ ?_
  · intro i j hi hj
    have hi' : i = 0 ∨ i = 1 := by omega
    have hj' : j = 0 ∨ j = 1 := by omega
    rcases hi' with rfl | rfl <;> rcases hj' with rfl | rfl <;> norm_num [sum_range_succ]
  · intro i j hi hj
    have : i = 0 := by omega
    subst this
    simp only [show (0 : Nat) ≠ j by omega, if_false, if_true]
  · intro i _; norm_num

/-- An indefinite matrix is reported, with the number of the row. -/
example (s0 : Nat → ℝ) : cholSolve 1 1 (fun _ _ => -1) (fun _ _ => 1) s0 = .error 1 := by
  norm_num [cholSolve, cholLoop, cholStep, symAssign, forRange, forUp, symGet, symSet, symIdx, updV]

end Verif.Dense
