import Verif.Sets.Lemmas

/-! # Lemmas about `ElementSet::ReorderEmpty` -/

namespace Verif.Sets

/-! ## Sets without comparator -/

theorem skipBack_spec (lc : List Nat) : ∀ n, skipBack lc n ≤ n ∧
    (∀ c, skipBack lc n = c + 1 → lc[c]? ≠ some 0) ∧
    (∀ i, skipBack lc n ≤ i → i < n → lc[i]? = some 0) := by
  intro n
  induction n with
  | zero => simp [skipBack]
  | succ n ih =>
    rw [skipBack]
    by_cases h : lc[n]? = some 0
    · rw [if_pos h]
      refine ⟨by omega, ih.2.1, fun i h1 h2 => ?_⟩
      by_cases hi : i = n
      · rw [hi]; exact h
      · exact ih.2.2 i h1 (by omega)
    · rw [if_neg h]
      refine ⟨Nat.le_refl _, ?_, fun i h1 h2 => by omega⟩
      intro c hc
      have : n = c := by omega
      rw [← this]; exact h

theorem valid_set_le (lc : List Nat) : ∀ p x, (valid (lc.set p x)).length ≤ (valid lc).length + 1 := by
  induction lc with
  | nil => intro p x; simp
  | cons y lc ih =>
    intro p x
    cases p with
    | zero =>
      simp only [List.set_cons_zero, valid, List.filter_cons]
      split <;> split <;> simp <;> omega
    | succ p =>
      have := ih p x
      simp only [List.set_cons_succ, valid, List.filter_cons] at this ⊢
      split <;> (try simp only [List.length_cons]) <;> omega

theorem valid_set_zero (lc : List Nat) : ∀ c x, lc[c]? = some x → x ≠ 0 →
    (valid (lc.set c 0)).length + 1 = (valid lc).length := by
  induction lc with
  | nil => intro c x h; simp at h
  | cons y lc ih =>
    intro c x h hx
    cases c with
    | zero =>
      simp only [List.getElem?_cons_zero, Option.some.injEq] at h
      simp [h, hx]
    | succ c =>
      have := ih c x (by simpa using h) hx
      simp only [List.set_cons_succ, valid, List.filter_cons] at this ⊢
      split <;> (try simp only [List.length_cons]) <;> omega

theorem reorderLoop_le : ∀ (k : Nat) (lc : List Nat) (holes : List Nat) (c : Nat),
    c + holes.length = k → ∀ lc' c', reorderLoop lc holes c = some (lc', c') →
    (valid lc').length ≤ (valid lc).length ∧ c' ≤ c ∧ lc'.length = lc.length := by
  intro k
  induction k with
  | zero =>
    intro lc holes c hk lc' c' h
    have : c = 0 := by omega
    subst this
    rw [reorderLoop] at h
    simp only [Option.some.injEq, Prod.mk.injEq] at h
    simp [← h.1, ← h.2]
  | succ k ih =>
    intro lc holes c hk lc' c' h
    cases c with
    | zero =>
      rw [reorderLoop] at h
      simp only [Option.some.injEq, Prod.mk.injEq] at h
      simp [← h.1, ← h.2]
    | succ c =>
      cases holes with
      | nil =>
        rw [reorderLoop] at h
        simp only [Option.some.injEq, Prod.mk.injEq] at h
        simp [← h.1, ← h.2]
      | cons p ps =>
        rw [reorderLoop] at h
        simp only [List.length_cons] at hk
        split at h
        · exact ih _ _ _ (by omega) _ _ h
        · cases hx : lc[c]? with
          | none => rw [hx] at h; cases h
          | some x =>
            rw [hx] at h
            simp only at h
            split at h
            · rename_i hp h0
              obtain ⟨h1, h2, h3⟩ := ih _ _ _ (by simp only [List.length_cons]; omega) _ _ h
              have h4 := valid_set_le lc p x
              have h5 := valid_set_zero (lc.set p x) c x (by
                rw [List.getElem?_set]
                simp only [show ¬ p = c by omega, if_false, hx]) h0
              refine ⟨by omega, by omega, by simpa using h3⟩
            · obtain ⟨h1, h2, h3⟩ := ih _ _ _ (by simp only [List.length_cons]; omega) _ _ h
              exact ⟨h1, by omega, h3⟩

theorem valid_take_lt (lc : List Nat) : ∀ c, c < lc.length → lc[c]? ≠ some 0 →
    (valid (lc.take c)).length < (valid lc).length := by
  induction lc with
  | nil => intro c h; simp at h
  | cons y lc ih =>
    intro c h h0
    cases c with
    | zero =>
      simp only [List.getElem?_cons_zero, ne_eq, Option.some.injEq] at h0
      simp [h0]
    | succ c =>
      have := ih c (by simpa using h) (by simpa using h0)
      simp only [List.take_succ_cons, valid, List.filter_cons] at this ⊢
      split <;> (try simp only [List.length_cons]) <;> omega

theorem reorderUnsorted_lt {s s' : ESet} (h : reorderUnsorted s = some s') :
    (valid s'.lc).length < (valid s.lc).length := by
  rw [reorderUnsorted] at h
  cases hr : reorderLoop s.lc s.holes (skipBack s.lc s.lc.length) with
  | none => rw [hr] at h; cases h
  | some q =>
    rw [hr] at h
    obtain ⟨lc, c⟩ := q
    simp only at h
    obtain ⟨h1, h2, h3⟩ := reorderLoop_le _ _ _ _ rfl _ _ hr
    have h4 := skipBack_spec s.lc s.lc.length
    have h5 := skipBack_spec lc c
    cases hs : skipBack lc c with
    | zero => rw [hs] at h; cases h
    | succ cend =>
      rw [hs] at h
      simp only [Option.some.injEq] at h
      rw [← h]
      have := valid_take_lt lc cend (by omega) (h5.2.1 cend hs)
      simp only
      omega

theorem valid_eq_self {l : List Nat} (h : ∀ x ∈ l, x ≠ 0) : valid l = l :=
  List.filter_eq_self.2 fun x hx => by simpa using h x hx

theorem reorderUnsorted_full {s : ESet} (hh : s.holes = []) (hz : ∀ x ∈ s.lc, x ≠ 0)
    (hn : s.lc ≠ []) : reorderUnsorted s = some { s with lc := s.lc.dropLast } := by
  have hlen : s.lc.length = (s.lc.length - 1) + 1 := by
    have := List.length_pos_of_ne_nil hn; omega
  have hsk : skipBack s.lc s.lc.length = (s.lc.length - 1) + 1 := by
    rw [hlen, skipBack, if_neg]
    · omega
    · intro h
      obtain ⟨h1, h2⟩ := List.getElem?_eq_some_iff.1 h
      exact hz _ (List.getElem_mem h1) h2
  have hsk' : skipBack s.lc ((s.lc.length - 1) + 1) = (s.lc.length - 1) + 1 := by
    rw [← hlen, hsk]; omega
  have hloop : reorderLoop s.lc s.holes ((s.lc.length - 1) + 1)
      = some (s.lc, (s.lc.length - 1) + 1) := by rw [hh, reorderLoop]
  rw [reorderUnsorted, hsk, hloop]
  simp only [hsk', List.dropLast_eq_take, hh]

/-! ## Sets with comparator -/

/-- What the loops write: up to the first hole the entries are lost. -/
def shifted (gap : Bool) : List Nat → List Nat
  | [] => []
  | x :: xs =>
    if x = 0 then shifted true xs
    else (if gap then x else 0) :: shifted gap xs

theorem shifted_true (l : List Nat) : shifted true l = valid l := by
  induction l with
  | nil => rfl
  | cons x l ih =>
    simp only [shifted, valid, List.filter_cons] at ih ⊢
    by_cases h : x = 0 <;> simp [h, ih]

theorem shifted_append (a b : List Nat) : ∀ g,
    shifted g (a ++ b) = shifted g a ++ shifted (g || decide (0 ∈ a)) b := by
  induction a with
  | nil => intro g; simp [shifted]
  | cons x a ih =>
    intro g
    simp only [List.cons_append, shifted, ih]
    by_cases h : x = 0
    · simp [h]
    · simp [h, List.mem_cons, Ne.symm h, eq_comm]

theorem valid_shifted_false (a b : List Nat) (ha : ∀ x ∈ a, x ≠ 0) :
    valid (shifted false (a ++ 0 :: b)) = valid b := by
  induction a with
  | nil =>
    simp only [List.nil_append, shifted, if_true, shifted_true, valid, List.filter_filter]
    simp
  | cons x a ih =>
    have := ha x (by simp)
    simp only [List.cons_append, shifted, this, if_false, Bool.false_eq_true]
    rw [valid, List.filter_cons_of_neg (by simp)]
    exact ih fun y hy => ha y (by simp [hy])

theorem shiftLoop_spec : ∀ (k : Nat) (lc : List Nat) (i last j : Nat), last - i = k → j ≤ i →
    i ≤ last → last ≤ lc.length → ∃ (lc' : List Nat) (j' : Nat),
      shiftLoop lc i last j = some (lc', j') ∧ lc'.length = lc.length ∧
      lc'.drop last = lc.drop last ∧ j' ≤ last ∧
      lc'.take j' = lc.take j ++ shifted (decide (j < i)) ((lc.drop i).take (last - i)) ∧
      (j' < last ↔ j < i ∨ 0 ∈ (lc.drop i).take (last - i)) := by
  intro k
  induction k with
  | zero =>
    intro lc i last j hk hj hi hl
    have : i = last := by omega
    subst this
    refine ⟨lc, j, ?_, rfl, rfl, hj, ?_, ?_⟩
    · rw [shiftLoop]; simp
    · simp [shifted]
    · simp
  | succ k ih =>
    intro lc i last j hk hj hi hl
    have hil : i < last := by omega
    have hlt : i < lc.length := by omega
    have hseg : (lc.drop i).take (last - i) = lc[i] :: (lc.drop (i + 1)).take (last - (i + 1)) := by
      rw [List.drop_eq_getElem_cons hlt, show last - i = (last - (i + 1)) + 1 by omega,
        List.take_succ_cons]
    rw [shiftLoop, if_pos hil, List.getElem?_eq_getElem hlt]
    simp only
    by_cases h0 : lc[i] = 0
    · rw [if_neg (by simpa using h0)]
      obtain ⟨lc', j', h1, h2, h3, h4, h5, h6⟩ := ih lc (i + 1) last j (by omega) (by omega)
        (by omega) hl
      refine ⟨lc', j', h1, h2, h3, h4, ?_, ?_⟩
      · rw [h5, hseg, shifted, if_pos h0]
        simp only [show j < i + 1 by omega, decide_true]
      · rw [h6, hseg, h0]
        simp only [List.mem_cons, true_or, or_true, iff_true]
        exact .inl (by omega)
    · rw [if_pos (by simpa using h0)]
      obtain ⟨lc', j', h1, h2, h3, h4, h5, h6⟩ := ih ((lc.set j lc[i]).set i 0) (i + 1) last (j + 1)
        (by omega) (by omega) (by omega) (by simpa using hl)
      have hd : ((lc.set j lc[i]).set i 0).drop (i + 1) = lc.drop (i + 1) := by
        rw [List.drop_set_of_lt (by omega), List.drop_set_of_lt (by omega)]
      refine ⟨lc', j', h1, by simpa using h2, ?_, h4, ?_, ?_⟩
      · rw [h3, List.drop_set_of_lt (by omega), List.drop_set_of_lt (by omega)]
      · rw [h5, hd, hseg, shifted, if_neg h0]
        have ht : ((lc.set j lc[i]).set i 0).take (j + 1)
            = lc.take j ++ [if j < i then lc[i] else 0] := by
          rw [List.take_succ_eq_append_getElem (by simp only [List.length_set]; omega)]
          congr 1
          · rw [List.take_set_of_le (by omega), List.take_set_of_le (Nat.le_refl _)]
          · congr 1
            rw [List.getElem_set]
            by_cases hji : j < i
            · simp only [show ¬ i = j by omega, if_false, hji, if_true, List.getElem_set_self]
            · simp only [show i = j by omega, if_true, Nat.lt_irrefl, if_false]
        rw [ht]
        simp only [Nat.add_lt_add_iff_right, decide_eq_true_eq, List.append_assoc,
          List.singleton_append]
      · rw [h6, hd, hseg]
        simp only [Nat.add_lt_add_iff_right, List.mem_cons, Ne.symm h0, false_or]

theorem reorderSorted_spec {s : ESet} (hs : s.sorted ≤ s.lc.length) (hh : s.holes ≠ []) :
    ∃ s', reorderSorted s = some s' ∧ s'.lc = shifted false s.lc ∧ s'.holes = [] ∧
      s'.cmp = s.cmp ∧ s'.sorted = (shifted false (s.lc.take s.sorted)).length := by
  obtain ⟨lc1, j1, h1, h2, h3, h4, h5, h6⟩ := shiftLoop_spec _ s.lc 0 s.sorted 0 rfl
    (Nat.le_refl 0) (Nat.zero_le _) hs
  obtain ⟨lc2, j2, g1, g2, g3, g4, g5, g6⟩ := shiftLoop_spec _ lc1 s.sorted lc1.length j1 rfl
    h4 (by omega) (Nat.le_refl _)
  refine ⟨{ s with lc := lc2.take j2, holes := [], sorted := j1 }, ?_, ?_, rfl, rfl, ?_⟩
  · rw [reorderSorted, if_neg hh, h1]
    simp only
    rw [g1]
  · simp only
    rw [g5, h5, h3]
    have e1 : (List.drop s.sorted s.lc).take (lc1.length - s.sorted) = s.lc.drop s.sorted := by
      rw [List.take_of_length_le]; rw [List.length_drop]; omega
    simp only [e1, List.take_zero, List.nil_append, Nat.lt_irrefl, decide_false, List.drop_zero,
      Nat.sub_zero] at h6 ⊢
    conv_rhs => rw [← List.take_append_drop s.sorted s.lc]
    rw [shifted_append]
    congr 2
    simp only [Bool.false_or]
    exact decide_eq_decide.2 (by simpa using h6)
  · simp only
    have : (lc1.take j1).length = j1 := by rw [List.length_take]; omega
    rw [← this, h5]
    simp

end Verif.Sets
