import Verif.Sets.Spec
import Mathlib.Data.List.Nodup

/-! # Lemmas about element arrays and element sets -/

namespace Verif.Sets

/-! ## Markers -/

theorem setArr_apply (l : List Nat) : ∀ (mk : Marks) (x : Nat),
    setArr mk l x = (mk x || decide (x ≠ 0 ∧ x ∈ l)) := by
  induction l with
  | nil => intro mk x; simp [setArr]
  | cons a l ih =>
    intro mk x
    rw [setArr, ih]
    by_cases ha : a = 0
    · subst ha
      simp only [ne_eq, not_true_eq_false, if_false, List.mem_cons]
      congr 1
      apply decide_eq_decide.2
      constructor
      · exact fun h => ⟨h.1, .inr h.2⟩
      · exact fun h => ⟨h.1, h.2.elim (fun e => absurd e h.1) id⟩
    · simp only [ne_eq, ha, not_false_eq_true, if_true, List.mem_cons]
      by_cases hx : x = a
      · subst hx; simp [ha]
      · simp [hx]

theorem remArr_apply (l : List Nat) : ∀ (mk : Marks) (x : Nat),
    remArr mk l x = (mk x && !decide (x ≠ 0 ∧ x ∈ l)) := by
  induction l with
  | nil => intro mk x; simp [remArr]
  | cons a l ih =>
    intro mk x
    rw [remArr, ih]
    by_cases ha : a = 0
    · subst ha
      simp only [ne_eq, not_true_eq_false, if_false, List.mem_cons]
      congr 2
      apply decide_eq_decide.2
      constructor
      · exact fun h => ⟨h.1, .inr h.2⟩
      · exact fun h => ⟨h.1, h.2.elim (fun e => absurd e h.1) id⟩
    · simp only [ne_eq, ha, not_false_eq_true, if_true, List.mem_cons]
      by_cases hx : x = a
      · subst hx; simp [ha]
      · simp [hx]

theorem setAll_eq (l : List Nat) : ∀ (mk : Marks), (∀ x ∈ l, x ≠ 0) →
    setAll mk l = some (setArr mk l) := by
  induction l with
  | nil => intro mk _; rfl
  | cons a l ih =>
    intro mk h
    have ha := h a (by simp)
    simp only [setAll, setMk, setArr, ha, if_false, ne_eq, not_false_eq_true, if_true]
    exact ih _ fun x hx => h x (by simp [hx])

theorem remAll_eq (l : List Nat) : ∀ (mk : Marks), (∀ x ∈ l, x ≠ 0) →
    remAll mk l = some (remArr mk l) := by
  induction l with
  | nil => intro mk _; rfl
  | cons a l ih =>
    intro mk h
    have ha := h a (by simp)
    simp only [remAll, remMk, remArr, ha, if_false, ne_eq, not_false_eq_true, if_true]
    exact ih _ fun x hx => h x (by simp [hx])

/-- A marker set on elements of a list only is clear after its removal from the list. -/
theorem rem_clean {mk : Marks} {l : List Nat} (h : ∀ x, mk x = true → x ≠ 0 ∧ x ∈ l) :
    remArr mk l = fun _ => false := by
  funext x
  rw [remArr_apply]
  cases hx : mk x
  · rfl
  · simp [h x hx]

theorem rem_set_clean (l : List Nat) :
    remArr (setArr (fun _ => false) l) l = fun _ => false := by
  apply rem_clean
  intro x hx
  rw [setArr_apply] at hx
  simpa using hx

/-! ## Element arrays -/

theorem mem_firstAppearances (l : List Nat) (x : Nat) : x ∈ firstAppearances l ↔ x ∈ l := by
  induction l with
  | nil => simp [firstAppearances]
  | cons a l ih =>
    simp only [firstAppearances, List.mem_cons, List.mem_filter, ih, decide_eq_true_eq]
    by_cases h : x = a <;> simp [h]

theorem nodup_firstAppearances (l : List Nat) : (firstAppearances l).Nodup := by
  induction l with
  | nil => simp [firstAppearances]
  | cons a l ih =>
    simp only [firstAppearances, List.nodup_cons, List.mem_filter]
    exact ⟨by simp, ih.filter _⟩

theorem firstAppearances_nodup {l : List Nat} (h : l.Nodup) : firstAppearances l = l := by
  induction l with
  | nil => rfl
  | cons a l ih =>
    simp only [List.nodup_cons] at h
    rw [firstAppearances, ih h.2]
    congr 1
    rw [List.filter_eq_self]
    intro x hx
    simp only [ne_eq, decide_not, Bool.not_eq_eq_eq_not, Bool.not_true, decide_eq_false_iff_not]
    rintro rfl
    exact h.1 hx

theorem firstAppearances_append (a b : List Nat) : firstAppearances (a ++ b) =
    firstAppearances a ++ (firstAppearances b).filter (· ∉ a) := by
  induction a with
  | nil => simp [firstAppearances]
  | cons x a ih =>
    simp only [List.cons_append, firstAppearances, ih, List.filter_append, List.filter_filter]
    congr 2
    apply List.filter_congr
    intro y _
    simp only [List.mem_cons, not_or, Bool.decide_and]

theorem uniteLoop_eq (hs : List Nat) : ∀ (c : List Nat) (mk : Marks), (∀ x ∈ hs, x ≠ 0) →
    (∀ x, x ≠ 0 → (mk x = true ↔ x ∈ c)) →
    ∃ mk', uniteLoop hs c mk = some (c ++ (firstAppearances hs).filter (· ∉ c), mk') ∧
      (∀ x, x ≠ 0 → (mk' x = true ↔ x ∈ c ++ hs)) ∧ (mk' 0 = mk 0) := by
  induction hs with
  | nil =>
    intro c mk _ h
    exact ⟨mk, by simp [uniteLoop, firstAppearances], fun x hx => by simpa using h x hx, rfl⟩
  | cons a hs ih =>
    intro c mk hz h
    have ha := hz a (by simp)
    have hz' : ∀ x ∈ hs, x ≠ 0 := fun x hx => hz x (by simp [hx])
    rw [uniteLoop]
    simp only [getMk, ha, if_false]
    cases hm : mk a with
    | true =>
      have hc : a ∈ c := (h a ha).1 hm
      obtain ⟨mk', h1, h2, h3⟩ := ih c mk hz' h
      refine ⟨mk', ?_, ?_, h3⟩
      · show uniteLoop hs c mk = _
        rw [h1]
        congr 2
        simp only [firstAppearances, List.filter_cons, hc, not_true_eq_false, decide_false,
          Bool.false_eq_true, if_false, List.filter_filter]
        congr 1
        apply List.filter_congr
        intro y _
        by_cases hy : y = a <;> simp [hy, hc]
      · intro x hx
        rw [h2 x hx]
        simp only [List.mem_append, List.mem_cons]
        constructor
        · exact fun h => h.elim .inl (fun h => .inr (.inr h))
        · rintro (h | rfl | h)
          · exact .inl h
          · exact .inl hc
          · exact .inr h
    | false =>
      have hc : a ∉ c := fun hh => by rw [(h a ha).2 hh] at hm; cases hm
      simp only [setMk, ha, if_false]
      obtain ⟨mk', h1, h2, h3⟩ := ih (c ++ [a]) (fun y => if y = a then true else mk y) hz' (by
        intro x hx
        by_cases hxa : x = a
        · subst hxa; simp
        · simp [hxa, h x hx])
      refine ⟨mk', ?_, ?_, ?_⟩
      · rw [h1]
        congr 2
        simp only [firstAppearances, List.filter_cons, hc, not_false_eq_true, decide_true, if_true,
          List.filter_filter, List.append_assoc, List.singleton_append]
        congr 2
        apply List.filter_congr
        intro y _
        by_cases hy : y = a <;> simp [hy, hc]
      · intro x hx
        rw [h2 x hx]
        simp
      · rw [h3]; simp [Ne.symm ha]

theorem compact_eq (mk : Marks) (want : Bool) : ∀ (k : Nat) (c : List Nat) (m n : Nat),
    c.length - m = k → n ≤ m → (∀ x ∈ c.drop m, x ≠ 0) →
    compact mk want c m n = some (c.take n ++ (c.drop m).filter (fun x => mk x = want)) := by
  intro k
  induction k with
  | zero =>
    intro c m n hk hn _
    have : ¬ m < c.length := by omega
    rw [compact]
    simp [this, List.drop_eq_nil_of_le (Nat.le_of_not_lt this)]
  | succ k ih =>
    intro c m n hk hn hz
    have hm : m < c.length := by omega
    have hd : c.drop m = c[m] :: c.drop (m + 1) := (List.drop_eq_getElem_cons hm)
    have h0 : c[m] ≠ 0 := hz _ (by rw [hd]; exact List.mem_cons_self)
    rw [compact]
    simp only [hm, dif_pos, getMk, h0, if_false]
    by_cases hw : mk c[m] = want
    · simp only [hw, if_true]
      have hdrop : (c.set n c[m]).drop (m + 1) = c.drop (m + 1) := by
        rw [List.drop_set_of_lt (by omega)]
      rw [ih _ (m + 1) (n + 1) (by rw [List.length_set]; omega) (by omega)
        (by rw [hdrop]; intro x hx; exact hz x (by rw [hd]; exact List.mem_cons_of_mem _ hx))]
      rw [hdrop, hd, List.filter_cons]
      simp only [hw, decide_true, if_true]
      congr 1
      have : (c.set n c[m]).take (n + 1) = c.take n ++ [c[m]] := by
        rw [List.take_succ_eq_append_getElem (by rw [List.length_set]; omega)]
        rw [List.getElem_set_self, List.take_set_of_le (Nat.le_refl n)]
      rw [this]; simp
    · simp only [hw, if_false]
      rw [ih c (m + 1) n (by omega) (by omega)
        (by intro x hx; exact hz x (by rw [hd]; exact List.mem_cons_of_mem _ hx))]
      rw [hd, List.filter_cons]
      simp [hw]

/-! ## Holes -/

/-- Positions of the holes of a list whose head is at position `i`. -/
def zeros : Nat → List Nat → List Nat
  | _, [] => []
  | i, x :: xs => if x = 0 then i :: zeros (i + 1) xs else zeros (i + 1) xs

/-- The valid entries. -/
abbrev valid (lc : List Nat) : List Nat := lc.filter (· ≠ 0)

theorem zeros_append (a b : List Nat) : ∀ i, zeros i (a ++ b) = zeros i a ++ zeros (i + a.length) b := by
  induction a with
  | nil => intro i; simp [zeros]
  | cons x a ih =>
    intro i
    simp only [List.cons_append, zeros, ih, List.length_cons]
    have : i + 1 + a.length = i + (a.length + 1) := by omega
    rw [this]
    split <;> simp

theorem zeros_length (l : List Nat) : ∀ i, (zeros i l).length + (valid l).length = l.length := by
  induction l with
  | nil => intro i; simp [zeros]
  | cons x l ih =>
    intro i
    have := ih (i + 1)
    simp only [valid] at this
    simp only [zeros, valid, List.filter_cons, List.length_cons]
    by_cases hx : x = 0
    · simp only [hx, if_true, List.length_cons, ne_eq, not_true_eq_false, decide_false,
        Bool.false_eq_true, if_false] at this ⊢; omega
    · simp only [hx, if_false, List.length_cons, ne_eq, not_false_eq_true, decide_true,
        if_true] at this ⊢; omega

theorem mem_zeros (l : List Nat) : ∀ i p, p ∈ zeros i l → ∃ a b, l = a ++ 0 :: b ∧ p = i + a.length := by
  induction l with
  | nil => intro i p h; simp [zeros] at h
  | cons x l ih =>
    intro i p h
    simp only [zeros] at h
    by_cases hx : x = 0
    · simp only [hx, if_true, List.mem_cons] at h
      rcases h with h | h
      · exact ⟨[], l, by simp [hx], by simpa using h⟩
      · obtain ⟨a, b, h1, h2⟩ := ih _ _ h
        exact ⟨x :: a, b, by simp [h1], by simp; omega⟩
    · simp only [hx, if_false] at h
      obtain ⟨a, b, h1, h2⟩ := ih _ _ h
      exact ⟨x :: a, b, by simp [h1], by simp; omega⟩

/-- What a set without comparator satisfies at any time. -/
structure Good (s : ESet) : Prop where
  cmp : s.cmp = .unsorted
  holes : s.holes.Perm (zeros 0 s.lc)
  nodup : (valid s.lc).Nodup

theorem mem_valid {l : List Nat} {x : Nat} : x ∈ valid l ↔ x ∈ l ∧ x ≠ 0 := by
  simp [valid]

theorem place_spec {s : ESet} {e : Nat} (h : Good s) (he : e ≠ 0) (hn : e ∉ s.lc) :
    ∃ s', place s e = some s' ∧ Good s' ∧ (∀ x, x ∈ valid s'.lc ↔ x ∈ valid s.lc ∨ x = e) ∧
      (∀ x, x ∈ s'.lc → x ∈ s.lc ∨ x = e) := by
  rw [place]
  cases hh : s.holes with
  | nil =>
    refine ⟨_, rfl, ⟨h.cmp, ?_, ?_⟩, ?_, ?_⟩
    · have := h.holes
      rw [hh] at this
      simp only [hh]
      rw [zeros_append, List.nil_perm.1 this]
      simp [zeros, he]
    · simp only [valid, List.filter_append, List.nodup_append]
      refine ⟨h.nodup, ?_, ?_⟩
      · simp [he]
      · intro a ha b hb
        simp [he] at hb
        subst hb
        rintro rfl
        exact hn (List.mem_filter.1 ha).1
    · intro x
      simp only [mem_valid, List.mem_append, List.mem_singleton]
      constructor
      · rintro ⟨h1 | h1, h2⟩
        · exact .inl ⟨h1, h2⟩
        · exact .inr h1
      · rintro (h1 | rfl)
        · exact ⟨.inl h1.1, h1.2⟩
        · exact ⟨.inr rfl, he⟩
    · intro x hx; simpa using hx
  | cons p ps =>
    have hp := h.holes
    rw [hh] at hp
    obtain ⟨a, b, h1, h2⟩ := mem_zeros s.lc 0 p (hp.subset (by simp))
    have h2 : p = a.length := by omega
    have hlt : p < s.lc.length := by rw [h1, h2]; simp
    have hset : s.lc.set p e = a ++ e :: b := by
      rw [h1, h2]; simp
    refine ⟨_, if_pos hlt, ⟨h.cmp, ?_, ?_⟩, ?_, ?_⟩
    · simp only [hset, zeros_append, zeros, he, if_false]
      rw [h1, zeros_append] at hp
      simp only [zeros, if_true] at hp
      have h3 : (p :: ps).Perm (p :: (zeros 0 a ++ zeros (0 + a.length + 1) b)) := by
        refine hp.trans ?_
        rw [show 0 + a.length = p by omega]
        exact List.perm_middle
      exact (List.perm_cons _).1 h3
    · have h4 := h.nodup
      rw [h1] at h4 hn
      simp only [valid, List.filter_append, List.filter_cons] at h4
      simp only [ne_eq, not_true_eq_false, decide_false, Bool.false_eq_true, if_false] at h4
      simp only [hset, valid, List.filter_append, List.filter_cons, he, ne_eq, not_false_eq_true,
        decide_true, if_true]
      rw [List.nodup_middle, List.nodup_cons]
      refine ⟨?_, h4⟩
      intro hm
      rw [← List.filter_append] at hm
      have := (List.mem_filter.1 hm).1
      apply hn
      simp only [List.mem_append, List.mem_cons] at this ⊢
      exact this.elim .inl (fun h => .inr (.inr h))
    · intro x
      rw [hset, h1]
      simp only [mem_valid, List.mem_append, List.mem_cons]
      constructor
      · rintro ⟨h3 | rfl | h3, h4⟩
        · exact .inl ⟨.inl h3, h4⟩
        · exact .inr rfl
        · exact .inl ⟨.inr (.inr h3), h4⟩
      · rintro (⟨h3 | h3 | h3, h4⟩ | rfl)
        · exact ⟨.inl h3, h4⟩
        · exact absurd h3 h4
        · exact ⟨.inr (.inr h3), h4⟩
        · exact ⟨.inr (.inl rfl), he⟩
    · intro x
      rw [hset, h1]
      simp only [List.mem_append, List.mem_cons]
      rintro (h3 | rfl | h3)
      · exact .inl (.inl h3)
      · exact .inr rfl
      · exact .inl (.inr (.inr h3))

theorem addElement_spec {s : ESet} {e : Nat} (h : Good s) (he : e ≠ 0) :
    ∃ s', addElement s e = some s' ∧ Good s' ∧
      ∀ x, x ∈ valid s'.lc ↔ x ∈ valid s.lc ∨ x = e := by
  rw [addElement]
  by_cases hm : e ∈ s.lc
  · refine ⟨s, if_pos hm, h, fun x => ⟨.inl, ?_⟩⟩
    rintro (h1 | rfl)
    · exact h1
    · exact mem_valid.2 ⟨hm, he⟩
  · rw [if_neg hm]
    obtain ⟨s', h1, h2, h3, _⟩ := place_spec h he hm
    exact ⟨s', h1, h2, h3⟩

theorem addLoop_spec (mk : Marks) (hs : List Nat) : ∀ (s : ESet), Good s → (∀ x ∈ hs, x ≠ 0) →
    hs.Nodup → (∀ x ∈ hs, mk x = false → x ∉ s.lc) →
    ∃ s', addLoop mk hs s = some s' ∧ Good s' ∧
      (∀ x, x ∈ valid s'.lc ↔ x ∈ valid s.lc ∨ (x ∈ hs ∧ mk x = false)) := by
  induction hs with
  | nil => intro s h _ _ _; exact ⟨s, rfl, h, fun x => by simp⟩
  | cons a hs ih =>
    intro s h hz hnd hmk
    have ha := hz a (by simp)
    rw [List.nodup_cons] at hnd
    have hz' : ∀ x ∈ hs, x ≠ 0 := fun x hx => hz x (by simp [hx])
    simp only [addLoop, getMk, ha, if_false]
    cases hm : mk a with
    | true =>
      obtain ⟨s', h1, h2, h3⟩ := ih s h hz' hnd.2 (fun x hx => hmk x (by simp [hx]))
      refine ⟨s', h1, h2, fun x => ?_⟩
      rw [h3 x]
      simp only [List.mem_cons]
      constructor
      · rintro (h | h)
        · exact .inl h
        · exact .inr ⟨.inr h.1, h.2⟩
      · rintro (h | ⟨rfl | h, h'⟩)
        · exact .inl h
        · rw [hm] at h'; cases h'
        · exact .inr ⟨h, h'⟩
    | false =>
      obtain ⟨s1, h1, h2, h3, h4⟩ := place_spec h ha (hmk a (by simp) hm)
      obtain ⟨s', h5, h6, h7⟩ := ih s1 h2 hz' hnd.2 (by
        intro x hx hm' hx'
        rcases h4 x hx' with h | rfl
        · exact hmk x (by simp [hx]) hm' h
        · exact hnd.1 hx)
      refine ⟨s', ?_, h6, fun x => ?_⟩
      · simp only [h1]; exact h5
      · rw [h7 x, h3 x]
        simp only [List.mem_cons]
        constructor
        · rintro ((h | rfl) | h)
          · exact .inl h
          · exact .inr ⟨.inl rfl, hm⟩
          · exact .inr ⟨.inr h.1, h.2⟩
        · rintro (h | ⟨rfl | h, h'⟩)
          · exact .inl (.inl h)
          · exact .inl (.inr rfl)
          · exact .inr ⟨h, h'⟩

theorem addElements_spec {s : ESet} {hs : List Nat} (h : Good s) (hz : ∀ x ∈ hs, x ≠ 0)
    (hnd : hs.Nodup) :
    ∃ s', addElements s hs (fun _ => false) = some (s', fun _ => false) ∧ Good s' ∧
      (∀ x, x ∈ valid s'.lc ↔ x ∈ valid s.lc ∨ x ∈ hs) := by
  have hmk : ∀ x, setArr (fun _ => false) s.lc x = decide (x ≠ 0 ∧ x ∈ s.lc) := by
    intro x; rw [setArr_apply]; simp
  obtain ⟨s', h1, h2, h3⟩ := addLoop_spec (setArr (fun _ => false) s.lc) hs s h hz hnd (by
    intro x hx hf hm
    rw [hmk] at hf
    have := of_decide_eq_false hf
    exact this ⟨hz x hx, hm⟩)
  have h3 : ∀ x, x ∈ valid s'.lc ↔ x ∈ valid s.lc ∨ x ∈ hs := by
    intro x
    rw [h3 x, hmk, decide_eq_false_iff_not, mem_valid]
    constructor
    · rintro (h | h)
      · exact .inl h
      · exact .inr h.1
    · rintro (h | h)
      · exact .inl h
      · by_cases hx : x ∈ s.lc
        · exact .inl ⟨hx, hz x h⟩
        · exact .inr ⟨h, fun h' => hx h'.2⟩
  refine ⟨s', ?_, h2, h3⟩
  rw [addElements, h1]
  simp only [Option.some.injEq, Prod.mk.injEq, true_and]
  apply rem_clean
  intro x hx
  rw [hmk, decide_eq_true_eq] at hx
  exact ⟨hx.1, (mem_valid.1 ((h3 x).2 (.inl (mem_valid.2 ⟨hx.2, hx.1⟩)))).1⟩

theorem removeAt_none (e : Nat) (l : List Nat) : ∀ i, removeAt e i l = none ↔ e ∉ l := by
  induction l with
  | nil => intro i; simp [removeAt]
  | cons x l ih =>
    intro i
    simp only [removeAt]
    by_cases hx : x = e
    · simp [hx]
    · simp only [hx, if_false, List.mem_cons, not_or]
      have := ih (i + 1)
      cases hr : removeAt e (i + 1) l with
      | none =>
        simp only [true_iff]
        exact ⟨fun h => hx h.symm, (this.1 hr)⟩
      | some q =>
        simp only [reduceCtorEq, false_iff]
        rintro ⟨_, h⟩
        rw [this.2 h] at hr; cases hr

theorem removeAt_some (e : Nat) (l : List Nat) : ∀ i p r, removeAt e i l = some (p, r) →
    ∃ a b, l = a ++ e :: b ∧ r = a ++ 0 :: b ∧ p = i + a.length := by
  induction l with
  | nil => intro i p r h; simp [removeAt] at h
  | cons x l ih =>
    intro i p r h
    simp only [removeAt] at h
    by_cases hx : x = e
    · simp only [hx, if_true, Option.some.injEq, Prod.mk.injEq] at h
      exact ⟨[], l, by simp [hx], by simp [h.2], by simp [h.1]⟩
    · simp only [hx, if_false] at h
      cases hr : removeAt e (i + 1) l with
      | none => rw [hr] at h; cases h
      | some q =>
        rw [hr] at h
        simp only [Option.some.injEq, Prod.mk.injEq] at h
        obtain ⟨a, b, h1, h2, h3⟩ := ih _ q.1 q.2 hr
        exact ⟨x :: a, b, by simp [h1], by simp [← h.2, h2], by rw [← h.1, h3]; simp; omega⟩

/-- Punching a hole at the position of one element. -/
theorem punch {s : ESet} {e : Nat} {a b : List Nat} (h : Good s) (he : e ≠ 0)
    (hl : s.lc = a ++ e :: b) :
    Good { s with lc := a ++ 0 :: b, holes := a.length :: s.holes } ∧
      ∀ x, x ∈ valid (a ++ 0 :: b) ↔ x ∈ valid s.lc ∧ x ≠ e := by
  have hnd := h.nodup
  rw [hl] at hnd
  simp only [valid, List.filter_append, List.filter_cons, ne_eq, he, not_false_eq_true,
    decide_true, if_true] at hnd
  rw [List.nodup_middle, List.nodup_cons] at hnd
  refine ⟨⟨h.cmp, ?_, ?_⟩, ?_⟩
  · have hp := h.holes
    rw [hl] at hp
    simp only [zeros_append, zeros, he, if_false, if_true] at hp ⊢
    rw [show 0 + a.length = a.length by omega] at hp ⊢
    exact (List.Perm.cons _ hp).trans List.perm_middle.symm
  · simp only [valid, List.filter_append, List.filter_cons, ne_eq, not_true_eq_false,
      decide_false, Bool.false_eq_true, if_false]
    exact hnd.2
  · intro x
    simp only [mem_valid, hl, List.mem_append, List.mem_cons]
    have hne : ∀ x, x ≠ 0 → (x ∈ a ∨ x ∈ b) → x ≠ e := by
      rintro x hx hm rfl
      apply hnd.1
      rw [← List.filter_append]
      exact List.mem_filter.2 ⟨by simpa using hm, by simpa using hx⟩
    constructor
    · rintro ⟨h1 | h1 | h1, h2⟩
      · exact ⟨⟨.inl h1, h2⟩, hne x h2 (.inl h1)⟩
      · exact absurd h1 h2
      · exact ⟨⟨.inr (.inr h1), h2⟩, hne x h2 (.inr h1)⟩
    · rintro ⟨⟨h1 | h1 | h1, h2⟩, h3⟩
      · exact ⟨.inl h1, h2⟩
      · exact absurd h1 h3
      · exact ⟨.inr (.inr h1), h2⟩

theorem removeElement_spec {s : ESet} {e : Nat} (h : Good s) (he : e ≠ 0) :
    Good (removeElement s e) ∧
      ∀ x, x ∈ valid (removeElement s e).lc ↔ x ∈ valid s.lc ∧ x ≠ e := by
  rw [removeElement]
  cases hr : removeAt e 0 s.lc with
  | none =>
    refine ⟨h, fun x => ⟨fun hx => ⟨hx, ?_⟩, fun hx => hx.1⟩⟩
    rintro rfl
    exact (removeAt_none _ _ _).1 hr (mem_valid.1 hx).1
  | some q =>
    obtain ⟨a, b, h1, h2, h3⟩ := removeAt_some _ _ _ q.1 q.2 hr
    have := punch h he h1
    simp only [h2, h3]
    rw [show 0 + a.length = a.length by omega]
    exact this

theorem eraseLoop_spec (mk : Marks) (want : Bool) (l : List Nat) : ∀ i hs,
    (eraseLoop mk want i l hs).1 = l.map (fun x => if x ≠ 0 ∧ mk x = want then 0 else x) ∧
    (eraseLoop mk want i l hs).2.Perm
      (hs ++ zeros i (l.map (fun x => if x ≠ 0 ∧ mk x ≠ want then x else if x = 0 then 1 else 0))) := by
  induction l with
  | nil => intro i hs; simp [eraseLoop, zeros]
  | cons x l ih =>
    intro i hs
    simp only [eraseLoop]
    by_cases h : x ≠ 0 ∧ mk x = want
    · rw [if_pos h]
      obtain ⟨h1, h2⟩ := ih (i + 1) (i :: hs)
      refine ⟨by simp [h1, h], ?_⟩
      refine h2.trans ?_
      simp only [List.map_cons, zeros, h.1, h.2, ne_eq, not_true_eq_false, and_false, if_false,
        if_true]
      exact List.perm_middle.symm
    · rw [if_neg h]
      obtain ⟨h1, h2⟩ := ih (i + 1) hs
      refine ⟨by simp only [h1, List.map_cons, if_neg h], ?_⟩
      refine h2.trans ?_
      rw [List.map_cons, zeros]
      by_cases hx : x = 0
      · simp [hx]
      · have : mk x ≠ want := fun hh => h ⟨hx, hh⟩
        simp [hx, this]

theorem zeros_split (mk : Marks) (want : Bool) (l : List Nat) : ∀ i,
    (zeros i l ++ zeros i (l.map (fun x =>
      if x ≠ 0 ∧ mk x ≠ want then x else if x = 0 then 1 else 0))).Perm
      (zeros i (l.map (fun x => if x ≠ 0 ∧ mk x = want then 0 else x))) := by
  induction l with
  | nil => intro i; simp [zeros]
  | cons x l ih =>
    intro i
    simp only [List.map_cons, zeros]
    by_cases hx : x = 0
    · simp only [hx, if_true, ne_eq, not_true_eq_false, false_and, if_false]
      simp only [show ¬ (1 : Nat) = 0 by decide, if_false, List.cons_append]
      exact (ih (i + 1)).cons _
    · by_cases hm : mk x = want
      · simp only [hx, hm, ne_eq, not_true_eq_false, and_false, if_false, not_false_eq_true,
          and_self, if_true]
        exact List.perm_middle.trans ((ih (i + 1)).cons _)
      · simp only [hx, hm, ne_eq, not_false_eq_true, and_self, if_true, and_false, if_false]
        exact ih (i + 1)

theorem eraseMarked_spec {s : ESet} (mk : Marks) (want : Bool) (h : Good s) :
    Good (eraseMarked mk want s) ∧
      ∀ x, x ∈ valid (eraseMarked mk want s).lc ↔ x ∈ valid s.lc ∧ mk x ≠ want := by
  obtain ⟨h1, h2⟩ := eraseLoop_spec mk want s.lc 0 s.holes
  have hv : valid (eraseMarked mk want s).lc = (valid s.lc).filter (fun x => mk x ≠ want) := by
    simp only [eraseMarked, h1, valid]
    induction s.lc with
    | nil => rfl
    | cons x l ih =>
      rw [List.map_cons, List.filter_cons, List.filter_cons, ih]
      by_cases hx : x = 0
      · simp [hx]
      · by_cases hm : mk x = want
        · simp [hx, hm]
        · simp [hx, hm]
  refine ⟨⟨h.cmp, ?_, ?_⟩, ?_⟩
  · simp only [eraseMarked, h1]
    exact h2.trans ((h.holes.append_right _).trans (zeros_split mk want s.lc 0))
  · rw [hv]; exact h.nodup.filter _
  · intro x
    rw [hv, List.mem_filter]; simp

theorem good_empty : Good .empty := ⟨rfl, by simp [ESet.empty, zeros], by simp [ESet.empty]⟩

theorem good_clear (s : ESet) : Good (clearSet s) :=
  ⟨rfl, by simp [clearSet, zeros], by simp [clearSet]⟩

theorem eraseAt_spec {s s' : ESet} {pos : Nat} (h : Good s) (he : eraseAt s pos = some s') :
    ∃ e, s.lc[pos]? = some e ∧ e ≠ 0 ∧ Good s' ∧
      ∀ x, x ∈ valid s'.lc ↔ x ∈ valid s.lc ∧ x ≠ e := by
  rw [eraseAt] at he
  cases hp : s.lc[pos]? with
  | none => rw [hp] at he; cases he
  | some e =>
    rw [hp] at he
    simp only at he
    by_cases h0 : e = 0
    · rw [if_pos h0] at he; cases he
    · rw [if_neg h0] at he
      have hlt : pos < s.lc.length := (List.getElem?_eq_some_iff.1 hp).1
      have hel : s.lc[pos] = e := (List.getElem?_eq_some_iff.1 hp).2
      have hl : s.lc = s.lc.take pos ++ e :: s.lc.drop (pos + 1) := by
        rw [← hel, ← List.drop_eq_getElem_cons hlt, List.take_append_drop]
      have hlen : (s.lc.take pos).length = pos := by rw [List.length_take]; omega
      have hset : s.lc.set pos 0 = s.lc.take pos ++ 0 :: s.lc.drop (pos + 1) := by
        rw [List.set_eq_take_append_cons_drop, if_pos hlt]
      have := punch h h0 hl
      rw [hlen, ← hset] at this
      refine ⟨e, rfl, h0, ?_⟩
      simp only [Option.some.injEq] at he
      rw [← he]
      exact this

/-! ## Enumeration -/

theorem skipHoles_spec (lc : List Nat) : ∀ (k pos : Nat), lc.length - pos = k →
    pos ≤ skipHoles lc pos ∧ valid (lc.drop pos) = valid (lc.drop (skipHoles lc pos)) ∧
      ∀ h : skipHoles lc pos < lc.length, lc[skipHoles lc pos] ≠ 0 := by
  intro k
  induction k with
  | zero =>
    intro pos hk
    have : ¬ pos < lc.length := by omega
    rw [skipHoles]; simp [this]
  | succ k ih =>
    intro pos hk
    have hp : pos < lc.length := by omega
    by_cases h0 : lc[pos] = 0
    · have e : skipHoles lc pos = skipHoles lc (pos + 1) := by rw [skipHoles]; simp [hp, h0]
      obtain ⟨h1, h2, h3⟩ := ih (pos + 1) (by omega)
      rw [e]
      refine ⟨by omega, ?_, h3⟩
      rw [← h2, List.drop_eq_getElem_cons hp, valid, List.filter_cons_of_neg (by simp [h0])]
    · have e : skipHoles lc pos = pos := by rw [skipHoles]; simp [hp, h0]
      rw [e]
      exact ⟨Nat.le_refl _, rfl, fun _ => h0⟩

theorem visit_spec (lc : List Nat) : ∀ (k pos : Nat), lc.length - pos = k →
    (∀ h : pos < lc.length, lc[pos] ≠ 0) → visit lc pos = valid (lc.drop pos) := by
  intro k
  induction k using Nat.strongRecOn with
  | ind k ih =>
    intro pos hk h
    rw [visit]
    by_cases hp : pos < lc.length
    · obtain ⟨h1, h2, h3⟩ := skipHoles_spec lc _ (pos + 1) rfl
      have e : max (pos + 1) (skipHoles lc (pos + 1)) = skipHoles lc (pos + 1) := by omega
      simp only [hp, dif_pos, e]
      rw [ih (lc.length - skipHoles lc (pos + 1)) (by omega) _ rfl h3, ← h2]
      rw [List.drop_eq_getElem_cons hp, valid, valid, List.filter_cons_of_pos (by simp [h hp])]
    · simp only [hp, dif_neg, not_false_eq_true]
      rw [List.drop_eq_nil_of_le (by omega)]; rfl

theorem elements_eq (s : ESet) : elements s = valid s.lc := by
  obtain ⟨_, h2, h3⟩ := skipHoles_spec s.lc _ 0 rfl
  rw [elements, visit_spec s.lc _ _ rfl h3, ← h2]; simp

theorem size_eq {s : ESet} (h : Good s) : size s = (valid s.lc).length := by
  have := zeros_length s.lc 0
  have := h.holes.length_eq
  rw [size]; omega

/-! ## Arrays computed from sets -/

theorem appendNew_eq (xs : List Nat) : ∀ (ret : List Nat) (mk : Marks),
    (appendNew xs ret mk).1 =
      ret ++ (firstAppearances (valid xs)).filter (fun x => mk x = false) ∧
    (∀ x, (appendNew xs ret mk).2 x = (mk x || decide (x ∈ valid xs))) := by
  induction xs with
  | nil => intro ret mk; simp [appendNew, firstAppearances]
  | cons a xs ih =>
    intro ret mk
    rw [appendNew]
    by_cases h : a ≠ 0 ∧ mk a = false
    · rw [if_pos h]
      obtain ⟨h1, h2⟩ := ih (ret ++ [a]) (fun y => if y = a then true else mk y)
      have hv : valid (a :: xs) = a :: valid xs := List.filter_cons_of_pos (by simpa using h.1)
      refine ⟨?_, ?_⟩
      · rw [h1, hv, firstAppearances, List.filter_cons_of_pos (by simpa using h.2),
          List.filter_filter, List.append_assoc, List.singleton_append]
        congr 2
        apply List.filter_congr
        intro y _
        by_cases hy : y = a <;> simp [hy]
      · intro x
        rw [h2, hv]
        by_cases hx : x = a <;> simp [hx]
    · rw [if_neg h]
      obtain ⟨h1, h2⟩ := ih ret mk
      by_cases h0 : a = 0
      · have hv : valid (a :: xs) = valid xs := List.filter_cons_of_neg (by simpa using h0)
        rw [hv]; exact ⟨h1, h2⟩
      · have hm : mk a = true := by
          cases hm : mk a
          · exact absurd ⟨h0, hm⟩ h
          · rfl
        have hv : valid (a :: xs) = a :: valid xs := List.filter_cons_of_pos (by simpa using h0)
        refine ⟨?_, ?_⟩
        · rw [h1, hv, firstAppearances, List.filter_cons_of_neg (by simp [hm]),
            List.filter_filter]
          congr 1
          apply List.filter_congr
          intro y _
          by_cases hy : y = a
          · simp [hy, hm]
          · simp [hy]
        · intro x
          rw [h2, hv]
          by_cases hx : x = a
          · simp [hx, hm]
          · simp [hx]

theorem appendCommon_eq (mk : Marks) (xs : List Nat) : ∀ (ret : List Nat) (mk2 : Marks),
    (appendCommon mk xs ret mk2).1 =
      ret ++ (firstAppearances (valid xs)).filter (fun x => mk x = true ∧ mk2 x = false) ∧
    (∀ x, (appendCommon mk xs ret mk2).2 x = (mk2 x || decide (x ∈ valid xs ∧ mk x = true))) := by
  induction xs with
  | nil => intro ret mk2; simp [appendCommon, firstAppearances]
  | cons a xs ih =>
    intro ret mk2
    rw [appendCommon]
    by_cases h : a ≠ 0 ∧ mk a = true ∧ mk2 a = false
    · rw [if_pos h]
      obtain ⟨h1, h2⟩ := ih (ret ++ [a]) (fun y => if y = a then true else mk2 y)
      have hv : valid (a :: xs) = a :: valid xs := List.filter_cons_of_pos (by simpa using h.1)
      refine ⟨?_, ?_⟩
      · rw [h1, hv, firstAppearances, List.filter_cons_of_pos (by simpa using h.2),
          List.filter_filter, List.append_assoc, List.singleton_append]
        congr 2
        apply List.filter_congr
        intro y _
        by_cases hy : y = a <;> simp [hy]
      · intro x
        rw [h2, hv]
        by_cases hx : x = a
        · simp [hx, h.2]
        · simp [hx]
    · rw [if_neg h]
      obtain ⟨h1, h2⟩ := ih ret mk2
      by_cases h0 : a = 0
      · have hv : valid (a :: xs) = valid xs := List.filter_cons_of_neg (by simpa using h0)
        rw [hv]; exact ⟨h1, h2⟩
      · have hm : ¬ (mk a = true ∧ mk2 a = false) := fun hh => h ⟨h0, hh⟩
        have hv : valid (a :: xs) = a :: valid xs := List.filter_cons_of_pos (by simpa using h0)
        refine ⟨?_, ?_⟩
        · rw [h1, hv, firstAppearances, List.filter_cons_of_neg (by simpa using hm),
            List.filter_filter]
          congr 1
          apply List.filter_congr
          intro y _
          by_cases hy : y = a
          · subst hy; simpa using hm
          · simp [hy]
        · intro x
          rw [h2, hv]
          by_cases hx : x = a
          · subst hx
            cases h3 : mk2 x
            · cases h4 : mk x
              · simp
              · exact absurd ⟨h4, h3⟩ hm
            · simp
          · simp [hx]

end Verif.Sets
