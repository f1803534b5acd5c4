import Verif.Xml.ExprLemmas
import Mathlib.Data.Nat.Digits.Lemmas

/-!
# Lemmas for the replacement of `SetSize`
-/

namespace Verif.Xml

theorem size_word {c : Char} (h : c ∈ ['(', ')', '+', '-', '*', '/', '~']) : c ∉ setSizeName := by
  simp only [List.mem_cons, List.not_mem_nil, or_false] at h
  rcases h with rfl | rfl | rfl | rfl | rfl | rfl | rfl <;> decide

theorem prefix_stop {p a b : Str} {c : Char} (hc : c ∉ p) (h : p <+: a ++ c :: b) : p <+: a := by
  induction a generalizing p with
  | nil =>
    cases p with
    | nil => simp
    | cons d p =>
      rw [List.nil_append, List.cons_prefix_cons] at h
      exact absurd h.1 (by rintro rfl; simp at hc)
  | cons e a ih =>
    cases p with
    | nil => simp
    | cons d p =>
      rw [List.cons_append, List.cons_prefix_cons] at h
      rw [List.cons_prefix_cons]
      exact ⟨h.1, ih (by intro hh; exact hc (by simp [hh])) h.2⟩

theorem subst_op (dec : Str) {c : Char} (hc : c ∉ setSizeName) (b : Str) : ∀ (a : Str) (k : Nat), k ≤ a.length →
    substSize dec k (a ++ c :: b) = substSize dec k a ++ c :: substSize dec 0 b := by
  intro a
  induction a with
  | nil =>
    intro k hk
    obtain rfl : k = 0 := by simpa using hk
    simp only [List.nil_append, substSize]
    rw [if_neg]
    rw [List.isPrefixOf_iff_prefix]
    intro h
    have := prefix_stop (a := []) hc h
    simp [setSizeName] at this
  | cons d a ih =>
    intro k hk
    cases k with
    | succ k =>
      simp only [List.cons_append, substSize]
      exact ih k (by simpa using hk)
    | zero =>
      simp only [List.cons_append, substSize]
      by_cases hp : setSizeName <+: d :: a
      · have hp' : setSizeName <+: d :: (a ++ c :: b) := hp.trans (List.prefix_append (d :: a) (c :: b))
        rw [if_pos (List.isPrefixOf_iff_prefix.2 hp'), if_pos (List.isPrefixOf_iff_prefix.2 hp)]
        have hl := hp.length_le
        rw [ih 6 (by simp [setSizeName] at hl; omega)]
        simp
      · have hp' : ¬ setSizeName <+: d :: (a ++ c :: b) := fun h => hp (prefix_stop (a := d :: a) hc h)
        rw [if_neg (by rwa [List.isPrefixOf_iff_prefix]), if_neg (by rwa [List.isPrefixOf_iff_prefix])]
        rw [ih 0 (by omega)]
        simp

theorem subst_none (dec : Str) : ∀ (w : Str), ¬ setSizeName <:+: w → substSize dec 0 w = w := by
  intro w
  induction w with
  | nil => intro _; rfl
  | cons c w ih =>
    intro h
    rw [List.infix_cons_iff, not_or] at h
    simp only [substSize]
    rw [if_neg (by rw [List.isPrefixOf_iff_prefix]; exact h.1), ih h.2]

theorem subst_name (dec : Str) : substSize dec 0 setSizeName = dec := by
  simp [setSizeName, substSize]

theorem infix_skip {dec l : Str} (hd : ')' ∉ dec) (h : [')', '-'] <:+: dec ++ l) : [')', '-'] <:+: l := by
  induction dec with
  | nil => exact h
  | cons c dec ih =>
    rw [List.cons_append, List.infix_cons_iff] at h
    rcases h with h | h
    · rw [List.cons_prefix_cons] at h
      exact absurd h.1 (by rintro rfl; simp at hd)
    · exact ih (by intro hh; exact hd (by simp [hh])) h

theorem subst_minus {dec : Str} (hne : dec ≠ []) (hd : '-' ∉ dec) {s t : Str} (h : substSize dec 0 s = '-' :: t) :
    ∃ s', s = '-' :: s' := by
  cases s with
  | nil => simp [substSize] at h
  | cons c s =>
    simp only [substSize] at h
    split at h
    · cases dec with
      | nil => exact absurd rfl hne
      | cons d dec =>
        simp only [List.cons_append, List.cons.injEq] at h
        exact absurd h.1 (by rintro rfl; simp at hd)
    · simp only [List.cons.injEq] at h
      exact ⟨s, by rw [h.1]⟩

theorem subst_infix {dec : Str} (hne : dec ≠ []) (hd : '-' ∉ dec) (hd' : ')' ∉ dec) : ∀ (s : Str) (k : Nat),
    [')', '-'] <:+: substSize dec k s → [')', '-'] <:+: s := by
  intro s
  induction s with
  | nil => intro k h; simpa [substSize] using h
  | cons c s ih =>
    intro k h
    rw [List.infix_cons_iff]
    cases k with
    | succ k => exact .inr (ih k h)
    | zero =>
      simp only [substSize] at h
      split at h
      · exact .inr (ih 6 (infix_skip hd' h))
      · rw [List.infix_cons_iff] at h
        rcases h with h | h
        · rw [List.cons_prefix_cons] at h
          obtain ⟨h1, t, h2⟩ := h
          obtain ⟨s', rfl⟩ := subst_minus hne hd h2.symm
          exact .inl ⟨s', by rw [h1]; rfl⟩
        · exact .inr (ih 0 h)

theorem decimal_word (n : Nat) : Word (decimal n) := by
  unfold decimal
  split
  · exact ⟨by simp, by decide⟩
  · rename_i h
    refine ⟨by simp [Nat.digits_ne_nil_iff_ne_zero, h], ?_⟩
    intro c hc
    simp only [List.mem_map, List.mem_reverse] at hc
    obtain ⟨d, hd, rfl⟩ := hc
    have := Nat.digits_lt_base (by decide : 1 < 10) hd
    clear hd
    revert d
    decide

theorem means_subst {num : Str → ℚ} {n : Nat} (hn : num (decimal n) = n) {part : Part} {s : Str} {x : ℚ}
    (h : Means (withSize num n) part s x) : Means (fun w => some (num w)) part (substSize (decimal n) 0 s) x := by
  induction h with
  | @word w x hw hx =>
    unfold withSize at hx
    split at hx
    · rename_i hw'
      rw [hw', subst_name]
      refine .word (decimal_word n) ?_
      rw [hn]; exact hx
    · split at hx
      · exact absurd hx (by simp)
      · rename_i h1
        rw [subst_none _ _ h1]
        exact .word hw hx
  | @bracket s x _ ih =>
    have e1 := subst_op (decimal n) (c := '(') (size_word (by decide)) (s ++ [')']) [] 0 (by simp)
    have e2 := subst_op (decimal n) (c := ')') (size_word (by decide)) [] s 0 (by simp)
    rw [List.nil_append] at e1
    rw [e1, e2]
    exact .bracket ih
  | factor _ ih => exact .factor ih
  | times _ _ ih1 ih2 =>
    rw [subst_op _ (size_word (by decide)) _ _ _ (by simp)]
    exact .times ih1 ih2
  | over _ _ h ih1 ih2 =>
    rw [subst_op _ (size_word (by decide)) _ _ _ (by simp)]
    exact .over ih1 ih2 h
  | product _ ih => exact .product ih
  | @minus s x _ ih =>
    have e1 := subst_op (decimal n) (c := '-') (size_word (by decide)) s [] 0 (by simp)
    rw [List.nil_append] at e1
    rw [e1]
    exact .minus ih
  | plus _ _ ih1 ih2 =>
    rw [subst_op _ (size_word (by decide)) _ _ _ (by simp)]
    exact .plus ih1 ih2
  | sub _ _ ih1 ih2 =>
    rw [subst_op _ (size_word (by decide)) _ _ _ (by simp)]
    exact .sub ih1 ih2

theorem means_ne_nil {K : Type} [Field K] {val : Str → Option K} {part : Part} {s : Str} {x : K} (h : Means val part s x) :
    s ≠ [] := by
  induction h with
  | word h _ => exact h.1
  | factor _ ih => exact ih
  | product _ ih => exact ih
  | _ => simp

end Verif.Xml
