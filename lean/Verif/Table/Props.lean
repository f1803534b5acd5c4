import Verif.Table.Spec
import Mathlib.Tactic.Ring
import Mathlib.Tactic.FieldSimp
import Mathlib.Tactic.NormNum

/-!
# C32: table interpolation
-/

namespace Verif.Table

variable {K : Type} [Field K] [LinearOrder K]

theorem at_some (a : List K) (i : Nat) (h : i < a.length) : at? a (i : Int) = some a[i] := by
  unfold at?
  rw [if_pos (by omega)]
  simp [h]

/-- What the search loop delivers for an argument that is not below the table: everything before `l` is below the argument,
everything after `r` is above it, and the loop stops either at an equal node or with `l = r + 1`. -/
theorem searchLoop_spec (args : List K) (arg : K) (hinc : args.Pairwise (· < ·)) (l r : Int)
    (hl : 0 ≤ l) (hr : r < args.length) (hlr : l ≤ r + 1)
    (hlo : ∀ i : Nat, (hi : i < args.length) → (i : Int) < l → args[i] < arg)
    (hhi : ∀ i : Nat, (hi : i < args.length) → (i : Int) > r → args[i] > arg) :
    ∃ l' r', searchLoop args arg l r = some (l', r') ∧ 0 ≤ l' ∧ r' < args.length ∧
      (∀ i : Nat, (hi : i < args.length) → (i : Int) < l' → args[i] < arg) ∧
      (∀ i : Nat, (hi : i < args.length) → (i : Int) > r' → args[i] > arg) ∧
      (l' = r' + 1 ∨ (l' ≤ r' ∧ ∃ m : Nat, ∃ hm : m < args.length, (m : Int) = (l' + r').tdiv 2 ∧ args[m] = arg)) := by
  have hmono : ∀ i j : Nat, (hi : i < args.length) → (hj : j < args.length) → i ≤ j → args[i] ≤ args[j] := by
    intro i j hi hj hij
    rcases Nat.lt_or_eq_of_le hij with h | h
    · exact le_of_lt (List.pairwise_iff_getElem.1 hinc i j hi hj h)
    · subst h; exact le_refl _
  generalize hn : (r + 1 - l).toNat = n
  induction n using Nat.strong_induction_on generalizing l r with
  | _ n ih =>
    rw [searchLoop]
    by_cases h : r ≥ l
    · rw [dif_pos h]
      have hmid : (l + r).tdiv 2 = (((l + r) / 2).toNat : Int) := by
        rw [Int.tdiv_eq_ediv_of_nonneg (by omega)]; omega
      set m := ((l + r) / 2).toNat with hm
      have hm1 : (m : Int) = (l + r) / 2 := by omega
      have hml : m < args.length := by omega
      simp only [hmid]
      rw [at_some args m hml]
      simp only
      by_cases hgt : args[m] > arg
      · rw [if_pos hgt, dif_pos (by omega)]
        refine ih _ (by omega) l (m - 1) hl (by omega) (by omega) hlo ?_ rfl
        intro i hi him
        exact lt_of_lt_of_le hgt (hmono m i hml hi (by omega))
      · rw [if_neg hgt]
        by_cases hlt : args[m] < arg
        · rw [if_pos hlt, dif_pos (by omega)]
          refine ih _ (by omega) (m + 1) r (by omega) hr (by omega) ?_ hhi rfl
          intro i hi him
          exact lt_of_le_of_lt (hmono i m hi hml (by omega)) hlt
        · rw [if_neg hlt]
          exact ⟨l, r, rfl, hl, hr, hlo, hhi, .inr ⟨h, m, hml, hmid.symm, le_antisymm (not_lt.1 hgt) (not_lt.1 hlt)⟩⟩
    · rw [dif_neg h]
      exact ⟨l, r, rfl, hl, hr, hlo, hhi, .inl (by omega)⟩

theorem binarySearch_spec (t : Table K) (hv : t.Valid) (arg : K)
    (h0 : t.args[0]'(by have := hv.two; omega) ≤ arg) :
    ∃ i : Nat, ∃ h : i + 1 < t.args.length, binarySearch t arg = some (i : Int) ∧ InCell t arg i h := by
  have h2 := hv.two
  obtain ⟨l, r, h1, hl, hr, hlo, hhi, hend⟩ := searchLoop_spec t.args arg hv.inc 0 ((t.size : Int) - 1) (by omega)
    (by unfold Table.size; omega) (by unfold Table.size; omega) (fun i hi h => by omega)
    (fun i hi h => by unfold Table.size at h; omega)
  have hmono : ∀ i j : Nat, (hi : i < t.args.length) → (hj : j < t.args.length) → i < j → t.args[i] < t.args[j] :=
    fun i j hi hj hij => List.pairwise_iff_getElem.1 hv.inc i j hi hj hij
  have key : ∃ m : Nat, ∃ hm : m < t.args.length, (l + r).tdiv 2 = m ∧ t.args[m] ≤ arg ∧
      ∀ j : Nat, (hj : j < t.args.length) → m < j → arg < t.args[j] := by
    rcases hend with hend | ⟨_, m, hm, hmm, heq⟩
    · have hr0 : 0 ≤ r := by
        by_contra hneg
        exact absurd h0 (not_le.2 (hhi 0 (by omega) (by omega)))
      refine ⟨r.toNat, by omega, ?_, ?_, ?_⟩
      · rw [Int.tdiv_eq_ediv_of_nonneg (by omega)]; omega
      · exact le_of_lt (hlo r.toNat (by omega) (by omega))
      · intro j hj hrj; exact hhi j hj (by omega)
    · exact ⟨m, hm, hmm.symm, le_of_eq heq, fun j hj hmj => heq ▸ hmono m j hm hj hmj⟩
  obtain ⟨m, hm, hmid, hle, habove⟩ := key
  unfold binarySearch
  rw [h1]
  simp only [hmid]
  unfold Table.size
  by_cases hc : (m : Int) > (t.args.length : Int) - 2
  · rw [if_pos hc]
    refine ⟨t.args.length - 2, by omega, by congr 1; omega, ?_, .inr (by omega)⟩
    refine le_trans (le_of_lt (hmono (t.args.length - 2) m (by omega) hm (by omega))) hle
  · rw [if_neg hc]
    exact ⟨m, by omega, rfl, hle, .inl (habove _ _ (by omega))⟩

theorem cell_some (t : Table K) (hv : t.Valid) (i : Nat) (h : i + 1 < t.args.length) :
    cell t (i : Int) = some (t.args[i], t.args[i + 1], t.vals[i]'(by rw [hv.same]; omega), t.vals[i + 1]'(by rw [hv.same]; omega)) := by
  unfold cell
  have e : ((i : Int) + 1) = ((i + 1 : Nat) : Int) := by omega
  rw [e, at_some _ _ (by omega), at_some _ _ h, at_some _ _ (by rw [hv.same]; omega), at_some _ _ (by rw [hv.same]; omega)]

/-- Every argument that is not below the table belongs to exactly one interval. -/
theorem inCell_unique (t : Table K) (hv : t.Valid) (arg : K) (i j : Nat) (hi : i + 1 < t.args.length)
    (hj : j + 1 < t.args.length) (h : InCell t arg i hi) (h' : InCell t arg j hj) : i = j := by
  have hmono : ∀ i j : Nat, (hi : i < t.args.length) → (hj : j < t.args.length) → i ≤ j → t.args[i] ≤ t.args[j] := by
    intro i j hi hj hij
    rcases Nat.lt_or_eq_of_le hij with h | h
    · exact le_of_lt (List.pairwise_iff_getElem.1 hv.inc i j hi hj h)
    · subst h; exact le_refl _
  rcases Nat.lt_trichotomy i j with hlt | he | hlt
  · exfalso
    rcases h.2 with h2 | h2
    · exact absurd (le_trans (hmono (i + 1) j hi (by omega) (by omega)) h'.1) (not_le.2 h2)
    · omega
  · exact he
  · exfalso
    rcases h'.2 with h2 | h2
    · exact absurd (le_trans (hmono (j + 1) i hj (by omega) (by omega)) h.1) (not_le.2 h2)
    · omega

/-- **C32.**  For a table with strictly increasing arguments and at least two nodes no access is outside the table, and
the three functions deliver for every argument: below the table the first value with zero derivative; otherwise,
in the interval `i` of the argument, the value and the slope of the straight line through the nodes `i` and `i + 1`
(the last interval extends to the right). -/
theorem C32_interpolation (t : Table K) (hv : t.Valid) (arg : K) :
    (arg < t.args[0]'(by have := hv.two; omega) →
      getValue t arg = some (t.vals[0]'(by have := hv.two; rw [hv.same]; omega)) ∧ getDerivative t arg = some 0 ∧
      getBoth t arg = some (t.vals[0]'(by have := hv.two; rw [hv.same]; omega), 0)) ∧
    (t.args[0]'(by have := hv.two; omega) ≤ arg →
      ∃ i, ∃ h : i + 1 < t.args.length, InCell t arg i h ∧
        (∀ j, ∀ hj : j + 1 < t.args.length, InCell t arg j hj → j = i) ∧
        getValue t arg = some (lineThrough t.args[i] t.args[i + 1] (t.vals[i]'(by rw [hv.same]; omega))
          (t.vals[i + 1]'(by rw [hv.same]; omega)) arg) ∧
        getDerivative t arg = some ((t.vals[i + 1]'(by rw [hv.same]; omega) - t.vals[i]'(by rw [hv.same]; omega)) /
          (t.args[i + 1] - t.args[i])) ∧
        getBoth t arg = some (lineThrough t.args[i] t.args[i + 1] (t.vals[i]'(by rw [hv.same]; omega))
          (t.vals[i + 1]'(by rw [hv.same]; omega)) arg,
          (t.vals[i + 1]'(by rw [hv.same]; omega) - t.vals[i]'(by rw [hv.same]; omega)) / (t.args[i + 1] - t.args[i]))) := by
  have h2 := hv.two
  have hs := hv.same
  have ha0 : at? t.args 0 = some (t.args[0]'(by omega)) := at_some t.args 0 (by omega)
  have hv0 : at? t.vals 0 = some (t.vals[0]'(by omega)) := at_some t.vals 0 (by omega)
  refine ⟨fun hlt => ?_, fun hge => ?_⟩
  · unfold getValue getDerivative getBoth
    rw [ha0, hv0]
    simp only [if_pos hlt, and_self]
  · obtain ⟨i, h, hb, hc⟩ := binarySearch_spec t hv arg hge
    refine ⟨i, h, hc, fun j hj hjc => inCell_unique t hv arg j i hj h hjc hc, ?_⟩
    unfold getValue getDerivative getBoth lineThrough
    rw [ha0, hv0]
    simp only [if_neg (not_lt.2 hge), hb, cell_some t hv i h]
    refine ⟨?_, trivial, trivial⟩
    congr 2
    ring

/-- **C32, nodes.**  At every node the table value is returned. -/
theorem C32_nodes [IsStrictOrderedRing K] (t : Table K) (hv : t.Valid) (k : Nat) (hk : k < t.args.length) :
    getValue t t.args[k] = some (t.vals[k]'(by rw [hv.same]; omega)) := by
  have h2 := hv.two
  have hs := hv.same
  have hmono : ∀ i j : Nat, (hi : i < t.args.length) → (hj : j < t.args.length) → i < j → t.args[i] < t.args[j] :=
    fun i j hi hj hij => List.pairwise_iff_getElem.1 hv.inc i j hi hj hij
  have h0 : t.args[0]'(by omega) ≤ t.args[k] := by
    rcases Nat.eq_zero_or_pos k with h | h
    · subst h; exact le_refl _
    · exact le_of_lt (hmono 0 k (by omega) hk h)
  obtain ⟨i, h, hc, _, hval, _⟩ := (C32_interpolation t hv t.args[k]).2 h0
  rw [hval]
  unfold lineThrough
  have hik : i = k ∨ i + 1 = k := by
    by_contra hne
    rcases Nat.lt_or_ge k i with hlt | hge
    · exact absurd hc.1 (not_le.2 (hmono k i hk (by omega) hlt))
    · rcases hc.2 with h3 | h3
      · exact absurd h3 (not_lt.2 (le_of_lt (hmono (i + 1) k h hk (by omega))))
      · omega
  rcases hik with rfl | rfl
  · simp
  · have hne : t.args[i + 1] - t.args[i] ≠ 0 := sub_ne_zero.2 (ne_of_gt (hmono i (i + 1) (by omega) h (by omega)))
    rw [div_mul_cancel₀ _ hne]; congr 1; ring

/-- A table with one node: any argument that is not below the node makes the code read outside the arrays. -/
theorem C32_single_node_fails :
    getValue (⟨[1], [5]⟩ : Table ℚ) 1 = none ∧ getDerivative (⟨[1], [5]⟩ : Table ℚ) 2 = none := by
  have h : ∀ arg : ℚ, 1 ≤ arg → binarySearch (⟨[1], [5]⟩ : Table ℚ) arg = some (-1) := by
    intro arg harg
    have h1 := searchLoop_spec [1] arg (by simp) 0 0 (by omega) (by simp) (by omega)
      (fun i hi h => by omega) (fun i hi h => by simp at hi; omega)
    obtain ⟨l, r, hs, _, hr, _, hhi, hend⟩ := h1
    unfold binarySearch Table.size
    simp only [List.length_cons, List.length_nil, zero_add, Nat.cast_one, sub_self]
    rw [hs]
    simp only [Option.some.injEq]
    have hr0 : r = 0 := by
      simp at hr
      by_contra hne
      have := hhi 0 (by simp) (by omega)
      simp at this
      exact absurd harg (not_le.2 this)
    subst hr0
    rcases hend with hend | ⟨_, m, _, hmm, _⟩
    · subst hend; simp
    · rw [← hmm]; rw [if_pos (by omega)]; simp
  constructor
  · unfold getValue
    simp only [at?, le_refl, ↓reduceIte, Int.toNat_zero, List.getElem?_cons_zero, lt_irrefl, h 1 (le_refl _)]
    rfl
  · unfold getDerivative
    simp only [at?, le_refl, ↓reduceIte, Int.toNat_zero, List.getElem?_cons_zero, h 2 (by norm_num)]
    rw [if_neg (by norm_num)]
    rfl

/-- Non-vacuity: a table with three nodes. -/
example : (⟨[0, 2, 5], [1, 3, 0]⟩ : Table ℚ).Valid := ⟨by decide, by decide, by norm_num⟩

end Verif.Table
