import Verif.Xml.Spec

/-!
# Lemmas for reading and writing of XML
-/

namespace Verif.Xml

/-! ## Comments -/

theorem skipExcl_go {w : Str} : ∀ (d : Str) (p2 p1 : Char), d ≠ [] → ['-', '-', '>'] <:+ p2 :: p1 :: d →
    (∀ k, ['-', '-', '>'] <+: (p2 :: p1 :: d).drop k → k + 3 = (p2 :: p1 :: d).length) → skipExcl p2 p1 (d ++ w) = w := by
  intro d
  induction d with
  | nil => intro _ _ h; exact absurd rfl h
  | cons c d ih =>
    intro p2 p1 _ hs hp
    rw [List.cons_append, skipExcl]
    by_cases h : c = '>' ∧ p1 = '-' ∧ p2 = '-'
    · rw [if_pos h]
      obtain ⟨rfl, rfl, rfl⟩ := h
      have := hp 0 (by simp)
      simp at this
      simp [this]
    · rw [if_neg h]
      have hd : d ≠ [] := by
        rintro rfl
        apply h
        have := List.IsSuffix.eq_of_length hs rfl
        simp at this
        exact ⟨this.2.2.symm, this.2.1.symm, this.1.symm⟩
      apply ih p1 c hd
      · rcases List.suffix_cons_iff.1 hs with e | e
        · have := congrArg List.length e
          simp at this
          exact absurd this hd
        · exact e
      · intro k hk
        have := hp (k + 1) (by simpa using hk)
        simp at this ⊢
        omega

theorem skipExcl_end {d : Str} (h : FirstEnd ['-', '-', '>'] d) (w : Str) : skipExcl '\x00' '\x00' (d ++ w) = w := by
  have hd : d ≠ [] := by
    rintro rfl
    have := h.1
    simp at this
  apply skipExcl_go d _ _ hd
  · exact (h.1.trans (List.suffix_cons _ _)).trans (List.suffix_cons _ _)
  · intro k hk
    match k with
    | 0 => exact absurd (List.cons_prefix_cons.1 hk).1 (by decide)
    | 1 => exact absurd (List.cons_prefix_cons.1 hk).1 (by decide)
    | k + 2 =>
      have := h.2 k (by simpa using hk)
      simp at this ⊢
      omega

theorem skipQuest_go {w : Str} : ∀ (d : Str) (p1 : Char), d ≠ [] → ['?', '>'] <:+ p1 :: d →
    (∀ k, ['?', '>'] <+: (p1 :: d).drop k → k + 2 = (p1 :: d).length) → skipQuest p1 (d ++ w) = w := by
  intro d
  induction d with
  | nil => intro _ h; exact absurd rfl h
  | cons c d ih =>
    intro p1 _ hs hp
    rw [List.cons_append, skipQuest]
    by_cases h : c = '>' ∧ p1 = '?'
    · rw [if_pos h]
      obtain ⟨rfl, rfl⟩ := h
      have := hp 0 (by simp)
      simp at this
      simp [this]
    · rw [if_neg h]
      have hd : d ≠ [] := by
        rintro rfl
        apply h
        have := List.IsSuffix.eq_of_length hs rfl
        simp at this
        exact ⟨this.2.symm, this.1.symm⟩
      apply ih c hd
      · rcases List.suffix_cons_iff.1 hs with e | e
        · have := congrArg List.length e
          simp at this
          exact absurd this hd
        · exact e
      · intro k hk
        have := hp (k + 1) (by simpa using hk)
        simp at this ⊢
        omega

theorem skipQuest_end {d : Str} (h : FirstEnd ['?', '>'] d) (w : Str) : skipQuest '\x00' (d ++ w) = w := by
  have hd : d ≠ [] := by
    rintro rfl
    have := h.1
    simp at this
  apply skipQuest_go d _ hd
  · exact h.1.trans (List.suffix_cons _ _)
  · intro k hk
    match k with
    | 0 => exact absurd (List.cons_prefix_cons.1 hk).1 (by decide)
    | k + 1 =>
      have := h.2 k (by simpa using hk)
      simp at this ⊢
      omega

theorem readUntil_go {stop w : Str} : ∀ (d ret : Str), d ≠ [] → stop <:+ ret ++ d →
    (∀ k, ret.length < k + stop.length → stop <+: (ret ++ d).drop k → k + stop.length = (ret ++ d).length) →
    readUntil stop ret (d ++ w) = (ret ++ d, some w) := by
  intro d
  induction d with
  | nil => intro _ h; exact absurd rfl h
  | cons c d ih =>
    intro ret _ hs hp
    rw [List.cons_append, readUntil]
    by_cases h : (ret ++ [c]).length < stop.length ∨ (ret ++ [c]).drop ((ret ++ [c]).length - stop.length) ≠ stop
    · rw [if_pos h]
      have hd : d ≠ [] := by
        rintro rfl
        rcases h with h | h
        · have := hs.length_le; omega
        · exact h (List.suffix_iff_eq_drop.1 hs).symm
      rw [ih (ret ++ [c]) hd (by simpa using hs)]
      · simp
      · intro k hk hpre
        have hpre : stop <+: (ret ++ c :: d).drop k := by simpa using hpre
        have := hp k (by simp at hk; omega) hpre
        simpa using this
    · rw [if_neg h]
      push Not at h
      have hl : stop.length ≤ ret.length + 1 := by simpa using h.1
      have := hp ((ret ++ [c]).length - stop.length) (by simp; omega) (by
        rw [show ret ++ c :: d = (ret ++ [c]) ++ d by simp, List.drop_append_of_le_length (by omega), h.2]
        exact List.prefix_append _ _)
      have hd : d = [] := by
        apply List.length_eq_zero_iff.1
        simp at this
        omega
      subst hd
      simp

theorem readUntil_end {stop d : Str} (h : FirstEnd stop d) (hd : d ≠ []) (w : Str) :
    readUntil stop [] (d ++ w) = (d, some w) := by
  have := readUntil_go (stop := stop) (w := w) d [] hd (by simpa using h.1) (fun k _ hk => h.2 k (by simpa using hk))
  simpa using this

/-! ## White space -/

theorem space_ne {c : Char} (h : isSpace c = true) : c ≠ '<' ∧ c ≠ '=' ∧ c ≠ '"' ∧ c ≠ '>' ∧ c ≠ '/' := by
  refine ⟨?_, ?_, ?_, ?_, ?_⟩ <;> rintro rfl <;> revert h <;> decide

theorem alpha_facts {c : Char} (h : isAlpha c = true ∨ c = '_') :
    isSpace c = false ∧ c ≠ '<' ∧ c ≠ '?' ∧ c ≠ '!' ∧ c ≠ '/' ∧ c ≠ '>' := by
  have : (65 ≤ c.toNat ∧ c.toNat ≤ 90) ∨ (97 ≤ c.toNat ∧ c.toNat ≤ 122) ∨ c.toNat = 95 := by
    rcases h with h | rfl
    · simp only [isAlpha, Bool.or_eq_true, Bool.and_eq_true, decide_eq_true_eq] at h
      omega
    · decide
  refine ⟨?_, ?_, ?_, ?_, ?_, ?_⟩
  · simp only [isSpace, Bool.or_eq_false_iff, beq_eq_false_iff_ne, Bool.and_eq_false_iff, decide_eq_false_iff_not]
    omega
  all_goals
    rintro rfl
    revert this
    decide

theorem spaces_nil : Spaces [] := fun _ h => by cases h

theorem spaces_append {v w : Str} (h1 : Spaces v) (h2 : Spaces w) : Spaces (v ++ w) := fun c h =>
  (List.mem_append.1 h).elim (h1 c) (h2 c)

theorem gap_spaces {v w : Str} (h1 : Spaces v) (h2 : Gap w) : Gap (v ++ w) := by
  induction v with
  | nil => exact h2
  | cons c v ih => exact .space (h1 c (by simp)) (ih fun c h => h1 c (by simp [h]))

theorem attrGap_spaces {v : Str} (h1 : Spaces v) : AttrGap v := by
  induction v with
  | nil => exact .nil
  | cons c v ih => exact .space (h1 c (by simp)) (ih fun c h => h1 c (by simp [h]))

/-! ## Gaps -/

theorem openLoop_true (f : Nat) (c : Char) (t : Str) : openLoop (f + 1) true (c :: t) =
    if c = '?' then openLoop f false (skipQuest '\x00' t)
    else if c = '!' then match t with
      | [] => some ([], ⟨.failure, []⟩)
      | c2 :: t2 =>
        if c2 = '-' then match t2 with
          | [] => some ([], ⟨.failure, []⟩)
          | c3 :: t3 =>
            if c3 = '-' then openLoop f false (skipExcl '\x00' '\x00' t3) else openLoop f true t3
        else if c2 = '[' then some (tagName ['!', '['] t2)
        else openLoop f true t2
    else if c = '/' then some ([], ⟨.readCloseTagSlash, c :: t⟩)
    else if isAlpha c ∨ c = '_' then some (tagName [c] t)
    else openLoop f true t := rfl

theorem attrLoop_cons (f : Nat) (c : Char) (t : Str) : attrLoop (f + 1) (c :: t) =
    if isSpace c then attrLoop f t
    else if c = '<' then match t with
      | [] => some ([], ⟨.failure, []⟩)
      | c2 :: t2 =>
        if c2 = '?' then attrLoop f (skipQuest '\x00' t2)
        else if c2 = '!' then attrLoop f (skipExcl '\x00' '\x00' t2)
        else some ([], ⟨.failure, t2⟩)
    else if isAlpha c ∨ c = '_' then some (attrName [c] t)
    else if c = '>' ∨ c = '/' then some ([], ⟨.endTag, c :: t⟩)
    else attrLoop f t := rfl

theorem openLoop_gap {t : Str} {res : Option (Str × Rd)} (ht : ∀ f, openLoop (f + 1) true t = res) {w : Str} (h : Gap w) :
    ∀ f, (w ++ '<' :: t).length < f → openLoop f false (w ++ '<' :: t) = res := by
  induction h with
  | nil =>
    intro f hf
    match f with
    | f + 1 =>
      simp at hf
      match f with
      | f + 1 =>
        show openLoop (f + 2) false ('<' :: t) = _
        rw [openLoop, if_pos rfl, ht]
  | @space c w hc _ ih =>
    intro f hf
    match f with
    | f + 1 =>
      rw [List.cons_append, openLoop, if_neg (space_ne hc).1, if_neg (by simp [hc])]
      exact ih f (by simp at hf ⊢; omega)
  | @comment d w hd _ ih =>
    intro f hf
    match f with
    | f + 1 =>
      simp at hf
      match f with
      | f + 1 =>
        show openLoop (f + 2) false ('<' :: '!' :: '-' :: '-' :: (d ++ w ++ '<' :: t)) = _
        rw [openLoop, if_pos rfl, openLoop_true, if_neg (by decide), if_pos rfl]
        simp only [if_pos]
        rw [List.append_assoc, skipExcl_end hd]
        exact ih f (by simp; omega)
  | @instruction d w hd _ ih =>
    intro f hf
    match f with
    | f + 1 =>
      simp at hf
      match f with
      | f + 1 =>
        show openLoop (f + 2) false ('<' :: '?' :: (d ++ w ++ '<' :: t)) = _
        rw [openLoop, if_pos rfl, openLoop_true, if_pos rfl, List.append_assoc, skipQuest_end hd]
        exact ih f (by simp; omega)

theorem expect_gap {t : Str} {res : Option (Str × Rd)} (ht : ∀ f, openLoop (f + 1) true t = res) {w : Str} (h : Gap w) :
    ∃ s, expectLoop (w ++ '<' :: t) = (true, ⟨.waitTag, s⟩) ∧ openLoop (s.length + 1) true s = res := by
  induction h with
  | nil => exact ⟨t, rfl, ht _⟩
  | @space c w hc _ ih =>
    obtain ⟨s, h1, h2⟩ := ih
    refine ⟨s, ?_, h2⟩
    rw [List.cons_append, expectLoop, if_neg (space_ne hc).1, if_neg (by simp [hc])]
    exact h1
  | @comment d w hd hw _ =>
    refine ⟨'!' :: '-' :: '-' :: (d ++ w ++ '<' :: t), rfl, ?_⟩
    rw [openLoop_true, if_neg (by decide), if_pos rfl]
    simp only [if_pos]
    rw [List.append_assoc, skipExcl_end hd]
    exact openLoop_gap ht hw _ (by simp; omega)
  | @instruction d w hd hw _ =>
    refine ⟨'?' :: (d ++ w ++ '<' :: t), rfl, ?_⟩
    rw [openLoop_true, if_pos rfl, List.append_assoc, skipQuest_end hd]
    exact openLoop_gap ht hw _ (by simp; omega)

theorem attrLoop_gap {s : Str} {res : Option (Str × Rd)} (hs : ∀ f, attrLoop (f + 1) s = res) {w : Str} (h : AttrGap w) :
    ∀ f, (w ++ s).length < f → attrLoop f (w ++ s) = res := by
  induction h with
  | nil =>
    intro f hf
    match f with
    | f + 1 => exact hs f
  | @space c w hc _ ih =>
    intro f hf
    match f with
    | f + 1 =>
      rw [List.cons_append, attrLoop_cons, if_pos hc]
      exact ih f (by simp at hf ⊢; omega)
  | @comment d w hd _ ih =>
    intro f hf
    match f with
    | f + 1 =>
      show attrLoop (f + 1) ('<' :: '!' :: (d ++ w ++ s)) = _
      rw [attrLoop_cons, if_neg (by decide), if_pos rfl]
      simp only [if_pos]
      rw [if_neg (by decide), List.append_assoc, skipExcl_end hd]
      exact ih f (by simp at hf ⊢; omega)
  | @instruction d w hd _ ih =>
    intro f hf
    match f with
    | f + 1 =>
      show attrLoop (f + 1) ('<' :: '?' :: (d ++ w ++ s)) = _
      rw [attrLoop_cons, if_neg (by decide), if_pos rfl]
      simp only [if_pos]
      rw [List.append_assoc, skipQuest_end hd]
      exact ih f (by simp at hf ⊢; omega)

/-! ## Names and values -/

theorem tagName_go {s : Str} : ∀ (t ret : Str), (∃ c r, ret = c :: r ∧ c ≠ '!') →
    (∀ c ∈ t, isPrint c = true ∧ isSpace c = false ∧ c ≠ '/' ∧ c ≠ '>') →
    tagName ret (t ++ s) = tagName (ret ++ t) s := by
  intro t
  induction t with
  | nil => intro ret _ _; simp
  | cons c t ih =>
    rintro ret ⟨a, r, rfl, ha⟩ ht
    obtain ⟨h1, h2, h3, h4⟩ := ht c (by simp)
    rw [List.cons_append, tagName, if_neg (by simp [h2]), if_neg (by simp [h3, h4]), if_pos (by simp [h1])]
    rw [if_neg (by
      intro h
      simp only [List.cons_append, cdata, List.cons.injEq] at h
      exact ha h.1), ih _ ⟨a, r ++ [c], by simp, ha⟩ fun c h => ht c (by simp [h])]
    simp

theorem openLoop_name {n s : Str} (hn : TagName n) (f : Nat) : openLoop (f + 1) true (n ++ s) = some (tagName n s) := by
  obtain ⟨⟨c, t, rfl, hc⟩, h2⟩ := hn
  obtain ⟨-, -, h3, h4, h5, -⟩ := alpha_facts (.inl hc)
  rw [List.cons_append, openLoop_true, if_neg h3, if_neg h4, if_neg h5, if_pos (.inl hc),
    tagName_go t [c] ⟨c, [], rfl, h4⟩ fun c h => h2 c (by simp [h])]
  rfl

theorem name_ne_cdata {n : Str} (hn : TagName n) : n ≠ cdata := by
  obtain ⟨⟨c, t, rfl, hc⟩, -⟩ := hn
  intro h
  simp only [cdata, List.cons.injEq] at h
  exact (alpha_facts (.inl hc)).2.2.2.1 h.1

theorem openLoop_cdata (s : Str) (f : Nat) : openLoop (f + 1) true (cdata ++ s) = some (cdata, ⟨.endTag, s⟩) := by
  show openLoop (f + 1) true ('!' :: '[' :: 'C' :: 'D' :: 'A' :: 'T' :: 'A' :: '[' :: s) = _
  rw [openLoop_true, if_neg (by decide), if_pos rfl]
  simp only
  rw [if_neg (by decide), if_pos trivial]
  simp [tagName, isSpace, isAlpha, isPrint, cdata]

theorem closeName_go {tag s : Str} : ∀ (t name : Str), name ≠ [] → (∀ c ∈ t, isPrint c = true ∧ c ≠ '>') →
    closeName tag name (t ++ s) = closeName tag (name ++ t) s := by
  intro t
  induction t with
  | nil => intro name _ _; simp
  | cons c t ih =>
    intro name hn ht
    obtain ⟨h1, h2⟩ := ht c (by simp)
    rw [List.cons_append, closeName, if_neg h2, if_pos (.inr ⟨hn, h1⟩), ih _ (by simp) fun c h => ht c (by simp [h])]
    simp

theorem closeName_name {n s : Str} (hn : TagName n) : closeName n [] (n ++ '>' :: s) = (true, ⟨.start, s⟩) := by
  obtain ⟨⟨c, t, rfl, hc⟩, h2⟩ := hn
  rw [List.cons_append, closeName, if_neg (alpha_facts (.inl hc)).2.2.2.2.2, if_pos (.inl hc), List.nil_append,
    closeName_go t [c] (by simp) fun c h => ⟨(h2 c (by simp [h])).1, (h2 c (by simp [h])).2.2.2⟩, closeName, if_pos rfl]
  simp

theorem attrName_go {s : Str} : ∀ (t ret : Str),
    (∀ c ∈ t, isAlpha c = true ∨ isDigit c = true ∨ c = '_' ∨ c = '-' ∨ c = '.' ∨ c = ':') →
    attrName ret (t ++ s) = attrName (ret ++ t) s := by
  intro t
  induction t with
  | nil => intro ret _; simp
  | cons c t ih =>
    intro ret ht
    have hc := ht c (by simp)
    have h1 : c ≠ '=' := by
      rintro rfl; revert hc; decide
    have h2 : isSpace c = false := by
      by_contra h
      have h : isSpace c = true := by simpa using h
      simp only [isSpace, isAlpha, isDigit, Bool.or_eq_true, beq_iff_eq, Bool.and_eq_true, decide_eq_true_eq] at h hc
      rcases hc with hc | hc | rfl | rfl | rfl | rfl
      · omega
      · omega
      all_goals (revert h; decide)
    rw [List.cons_append, attrName, if_neg h1, if_neg (by simp [h2]), if_pos hc, ih _ fun c h => ht c (by simp [h])]
    simp

theorem valueWait_spaces {w s : Str} (h : Spaces w) : valueWait (w ++ s) = valueWait s := by
  induction w with
  | nil => rfl
  | cons c w ih =>
    rw [List.cons_append, valueWait, if_pos (h c (by simp))]
    exact ih fun c hc => h c (by simp [hc])

theorem valueRead_spaces {w s : Str} (h : Spaces w) : valueRead [] (w ++ s) = valueRead [] s := by
  induction w with
  | nil => rfl
  | cons c w ih =>
    rw [List.cons_append, valueRead, if_pos ⟨h c (by simp), rfl⟩]
    exact ih fun c hc => h c (by simp [hc])

theorem valueQuote_go {s : Str} : ∀ (v ret : Str), Quoted v → valueQuote ret (v ++ '"' :: s) = (ret ++ v, ⟨.waitAttribute, s⟩) := by
  intro v
  induction v with
  | nil => intro ret _; simp [valueQuote]
  | cons c v ih =>
    intro ret hv
    obtain ⟨h1, h2⟩ := hv c (by simp)
    rw [List.cons_append, valueQuote, if_neg h2, if_neg (by simp [h1]), ih _ fun c h => hv c (by simp [h])]
    simp

theorem valueRead_go {s : Str} {b : Char} (hb : isSpace b = true) : ∀ (v ret : Str), ret ≠ [] →
    (∀ c ∈ v, isSpace c = false ∧ c ≠ '>' ∧ c ≠ '/') → valueRead ret (v ++ b :: s) = (ret ++ v, ⟨.waitAttribute, s⟩) := by
  intro v
  induction v with
  | nil =>
    intro ret hr _
    obtain ⟨-, -, -, h4, h5⟩ := space_ne hb
    rw [List.nil_append, valueRead, if_neg (by simp [hr]), if_neg (by simp [hr]), if_neg (by simp [h4, h5]), if_neg (by simp [hb])]
    simp
  | cons c v ih =>
    intro ret hr hv
    obtain ⟨h1, h2, h3⟩ := hv c (by simp)
    rw [List.cons_append, valueRead, if_neg (by simp [hr]), if_neg (by simp [hr]), if_neg (by simp [h2, h3]), if_pos h1,
      ih _ (by simp) fun c h => hv c (by simp [h])]
    simp

theorem valueRead_bare {v s : Str} {b : Char} (hb : isSpace b = true) (hv : Bare v) :
    valueRead [] (v ++ b :: s) = (v, ⟨.waitAttribute, s⟩) := by
  obtain ⟨h1, h2, h3⟩ := hv
  match v with
  | c :: v =>
    obtain ⟨k1, k2, k3⟩ := h3 c (by simp)
    have k4 : c ≠ '"' := by simpa using h2
    rw [List.cons_append, valueRead, if_neg (by simp [k1]), if_neg (by simp [k4]), if_neg (by simp [k2, k3]), if_pos k1,
      valueRead_go hb v _ (by simp) fun c h => h3 c (by simp [h])]
    simp

/-- After the name of an attribute: the value. -/
theorem name_value {n w1 s : Str} (hn : AttrName n) (h1 : Spaces w1) : ∃ r,
    (∀ f, attrLoop (f + 1) (n ++ w1 ++ '=' :: s) = some (n, ⟨.waitAttributeValue, r⟩)) ∧ s.length < r.length ∧
      valueWait r = valueRead [] s := by
  obtain ⟨⟨c, t, rfl, hc⟩, h2⟩ := hn
  obtain ⟨k1, k2, -, -, -, k6⟩ := alpha_facts hc
  have key : ∀ f, attrLoop (f + 1) (c :: t ++ w1 ++ '=' :: s) = some (attrName (c :: t) (w1 ++ '=' :: s)) := by
    intro f
    rw [List.append_assoc, List.cons_append, attrLoop_cons, if_neg (by simp [k1]), if_neg k2,
      if_pos (by simpa using hc), attrName_go t [c] fun c h => h2 c (by simp [h])]
    rfl
  have he : valueWait ('=' :: s) = valueRead [] s := by simp [valueWait, isSpace]
  match w1 with
  | [] =>
    refine ⟨'=' :: s, fun f => by rw [key f]; simp [attrName], by simp, he⟩
  | b :: w =>
    have hb := h1 b (by simp)
    refine ⟨w ++ '=' :: s, fun f => ?_, by simp; omega, ?_⟩
    · rw [key f, List.cons_append, attrName, if_neg (space_ne hb).2.1, if_pos hb]
    · rw [valueWait_spaces fun c h => h1 c (by simp [h]), he]

/-! ## Attributes -/

theorem kept_cons_ne {a : Str × Str} {l : List (Str × Str)} (h : a.1 ≠ includeName) : kept (a :: l) = a :: kept l := by
  simp [kept, h]

theorem kept_cons_eq {a : Str × Str} {l : List (Str × Str)} (h : a.1 = includeName) : kept (a :: l) = kept l := by
  simp [kept, h]

/-- The last value of `Include`, or `inc`. -/
def lastInc (inc : Str) : List (Str × Str) → Str
  | [] => inc
  | a :: l => if a.1 = includeName then lastInc a.2 l else lastInc inc l

theorem lastInc_eq (l : List (Str × Str)) : lastInc [] l = included l := by
  have key : ∀ (l : List (Str × Str)) (inc : Str),
      lastInc inc l = ((l.filter fun a => decide (a.1 = includeName)).getLast?.map (·.2)).getD inc := by
    intro l
    induction l with
    | nil => intro inc; rfl
    | cons a l ih =>
      intro inc
      rw [lastInc]
      by_cases h : a.1 = includeName
      · rw [if_pos h, ih, List.filter_cons_of_pos (by simpa using h), List.getLast?_cons]
        cases (l.filter fun a => decide (a.1 = includeName)).getLast? <;> rfl
      · rw [if_neg h, ih, List.filter_cons_of_neg (by simpa using h)]
  exact key l []

/-- What attributes are read as, when the end of the tag follows. -/
def AttrsRead (l : List (Str × Str)) (i s : Str) : Prop :=
  ∃ a r, attributeName ⟨.waitAttribute, i ++ s⟩ = some (a, r) ∧ l.length ≤ r.rest.length ∧
    ∀ f attrs inc, l.length < f → attrsLoop f a attrs inc r = some (attrs ++ kept l, lastInc inc l, ⟨.endTag, s⟩)

theorem attrs_step {w n w1 u v i s : Str} {l : List (Str × Str)} (hw : AttrGap w) (hn : AttrName n) (h1 : Spaces w1)
    (hv : valueRead [] (u ++ s) = (v, ⟨.waitAttribute, i ++ s⟩)) (hl : l.length + 1 ≤ u.length)
    (ih : AttrsRead l i s) : AttrsRead ((n, v) :: l) (w ++ n ++ w1 ++ '=' :: u) s := by
  obtain ⟨a, r, e1, e2, e3⟩ := ih
  obtain ⟨q, q1, q2, q3⟩ := name_value (s := u ++ s) hn h1
  refine ⟨n, ⟨.waitAttributeValue, q⟩, ?_, ?_, ?_⟩
  · rw [attributeName, if_pos rfl]
    show attrLoop _ (w ++ n ++ w1 ++ '=' :: u ++ s) = _
    have := attrLoop_gap q1 hw
    rw [show w ++ n ++ w1 ++ '=' :: u ++ s = w ++ (n ++ w1 ++ '=' :: (u ++ s)) by simp]
    exact this _ (Nat.lt_succ_self _)
  · simp at q2 ⊢; omega
  · intro f attrs inc hf
    match f with
    | f + 1 =>
      have hval : attributeValue ⟨.waitAttributeValue, q⟩ = (v, ⟨.waitAttribute, i ++ s⟩) := by
        rw [attributeValue, if_pos rfl]
        show valueWait q = _
        rw [q3, hv]
      rw [attrsLoop, if_neg (by simp), hval]
      simp only
      rw [e1]
      simp only
      by_cases hi : n = includeName
      · rw [if_pos hi, e3 _ _ _ (by simp at hf; omega), kept_cons_eq (show (n, v).1 = _ from hi), lastInc,
          if_pos (show (n, v).1 = _ from hi)]
      · rw [if_neg hi, e3 _ _ _ (by simp at hf; omega), kept_cons_ne (show (n, v).1 ≠ _ from hi), lastInc,
          if_neg (show ¬ (n, v).1 = _ from hi)]
        simp

theorem attrs_length {l : List (Str × Str)} {i : Str} (h : Attrs l i) : l.length ≤ i.length := by
  induction h with
  | nil => simp
  | quoted => simp at *; omega
  | bare => simp at *; omega

theorem attrs_read {l : List (Str × Str)} {i : Str} (h : Attrs l i) {s : Str} (hs : ∃ c t, s = c :: t ∧ (c = '>' ∨ c = '/')) :
    AttrsRead l i s := by
  induction h with
  | @nil w hw =>
    refine ⟨[], ⟨.endTag, s⟩, ?_, by simp, ?_⟩
    · rw [attributeName, if_pos rfl]
      apply attrLoop_gap _ hw _ (Nat.lt_succ_self _)
      intro f
      obtain ⟨c, t, rfl, hc⟩ := hs
      rcases hc with rfl | rfl <;> simp [attrLoop, isSpace, isAlpha]
    · intro f attrs inc hf
      match f with
      | f + 1 => simp [attrsLoop, kept, lastInc]
  | @quoted w n w1 w2 v i l hw hn h1 h2 hv hi ih =>
    apply attrs_step hw hn h1 _ (by have := attrs_length hi; simp; omega) ih
    rw [List.append_assoc, valueRead_spaces h2, List.cons_append, valueRead, if_neg (by decide), if_pos ⟨rfl, rfl⟩,
      List.append_assoc, List.cons_append, valueQuote_go v [] hv]
    rfl
  | @bare w n w1 w2 v i c l hw hn h1 h2 hv hc hi ih =>
    apply attrs_step hw hn h1 _ (by have := attrs_length hi; simp; omega) ih
    rw [List.append_assoc, List.append_assoc, valueRead_spaces h2, List.cons_append, valueRead_bare hc hv]

/-! ## Tags -/

theorem readCloseTag_end {n : Nat} {e i : Str} (h : (n = 1 ∧ e = ['>']) ∨ (n = 2 ∧ e = ['/', '>'])) (st : St) :
    readCloseTag ⟨st, e ++ i⟩ = (n, ⟨.start, i⟩) := by
  rcases h with ⟨rfl, rfl⟩ | ⟨rfl, rfl⟩ <;> simp [readCloseTag]

theorem openTag_head {files : Str → Option Str} {w n h e i : Str} {l : List (Str × Str)} {k : Nat} (hw : Gap w) (hh : Head n l h)
    (he : (k = 1 ∧ e = ['>']) ∨ (k = 2 ∧ e = ['/', '>'])) :
    openTag files ⟨.start, w ++ h ++ (e ++ i)⟩ = some (⟨n, kept l, k⟩, ⟨.start, paste files (included l) i⟩) := by
  have hs : ∃ c t, e ++ i = c :: t ∧ (c = '>' ∨ c = '/') := by
    rcases he with ⟨_, rfl⟩ | ⟨_, rfl⟩
    · exact ⟨'>', i, rfl, .inl rfl⟩
    · exact ⟨'/', '>' :: i, rfl, .inr rfl⟩
  cases hh with
  | plain hn =>
    have hr : ∀ f, openLoop (f + 1) true (n ++ (e ++ i)) = some (n, ⟨.endTag, e ++ i⟩) := by
      intro f
      rw [openLoop_name hn]
      obtain ⟨c, t, ht, hc⟩ := hs
      rw [ht, tagName, if_neg (by rcases hc with rfl | rfl <;> decide), if_pos (by tauto)]
    obtain ⟨s, g1, g2⟩ := expect_gap hr hw
    have hx : expectOpenTag ⟨.start, w ++ '<' :: n ++ (e ++ i)⟩ = (true, ⟨.waitTag, s⟩) := by
      rw [expectOpenTag, if_pos rfl, ← g1]; simp
    unfold openTag
    simp only [hx, readOpenTag, g2]
    rw [if_neg (by simp), if_neg (by simp), if_neg (name_ne_cdata hn), if_neg (by simp)]
    simp only [attributeName]
    rw [if_neg (by simp)]
    simp [attrsLoop, readCloseTag_end he, kept, included, paste]
  | @attrs c i' _ hn hc ha =>
    have hr : ∀ f, openLoop (f + 1) true (n ++ c :: (i' ++ (e ++ i))) = some (n, ⟨.waitAttribute, i' ++ (e ++ i)⟩) := by
      intro f
      rw [openLoop_name hn, tagName, if_pos hc]
    obtain ⟨s, g1, g2⟩ := expect_gap hr hw
    have hx : expectOpenTag ⟨.start, w ++ '<' :: (n ++ c :: i') ++ (e ++ i)⟩ = (true, ⟨.waitTag, s⟩) := by
      rw [expectOpenTag, if_pos rfl, ← g1]; simp
    obtain ⟨a, r, e1, e2, e3⟩ := attrs_read ha hs
    unfold openTag
    simp only [hx, readOpenTag, g2]
    rw [if_neg (by simp), if_neg (by simp), if_neg (name_ne_cdata hn), if_neg (by simp), e1]
    simp only
    rw [e3 _ _ _ (by omega)]
    simp only [readCloseTag_end he, List.nil_append, lastInc_eq]

theorem openTag_close {files : Str → Option Str} {w o : Str} (hw : Gap w) :
    openTag files ⟨.start, w ++ '<' :: '/' :: o⟩ = some (⟨[], [], 3⟩, ⟨.readCloseTagSlash, '/' :: o⟩) := by
  have hr : ∀ f, openLoop (f + 1) true ('/' :: o) = some ([], ⟨.readCloseTagSlash, '/' :: o⟩) := by
    intro f
    rw [openLoop_true, if_neg (by decide), if_neg (by decide), if_pos rfl]
  obtain ⟨s, g1, g2⟩ := expect_gap hr hw
  unfold openTag
  simp only [expectOpenTag, if_pos, g1, readOpenTag, g2]
  rw [if_neg (by simp), if_neg (by simp), if_neg (by decide)]

theorem openTag_block {files : Str → Option Str} {w o : Str} (hw : Gap w) :
    openTag files ⟨.start, w ++ '<' :: (cdata ++ o)⟩ = some (⟨cdata, [], 4⟩, ⟨.endTag, o⟩) := by
  obtain ⟨s, g1, g2⟩ := expect_gap (openLoop_cdata o) hw
  unfold openTag
  simp only [expectOpenTag, if_pos, g1, readOpenTag, g2]
  rw [if_neg (by simp), if_neg (by simp)]

theorem expect_raw {w o : Str} {c : Char} (hw : Spaces w) (hc : isSpace c = false) (h : c ≠ '<') :
    expectLoop (w ++ c :: o) = (false, ⟨.start, c :: o⟩) := by
  induction w with
  | nil => rw [List.nil_append, expectLoop, if_neg h, if_pos hc]
  | cons b w ih =>
    have hb := hw b (by simp)
    rw [List.cons_append, expectLoop, if_neg (space_ne hb).1, if_neg (by simp [hb])]
    exact ih fun c hc => hw c (by simp [hc])

theorem closeTag_name {n s : Str} {l : List (Str × Str)} (hn : TagName n) :
    closeTag ⟨n, l, 1⟩ ⟨.readCloseTagSlash, '/' :: (n ++ '>' :: s)⟩ = some (true, ⟨.start, s⟩) := by
  simp only [closeTag, readFinishTag]
  rw [if_neg (by decide), if_neg (by decide), if_neg (by decide)]
  simp only [List.length_cons, closeLoop]
  rw [if_neg (by decide), if_neg (by decide), if_pos trivial, closeName_name hn]

theorem head_name {n h : Str} {l : List (Str × Str)} (hh : Head n l h) : TagName n := by
  cases hh <;> assumption

theorem trimEnd_raw {d w : Str} (hd : RawText d) (hw : Spaces w) : trimEnd (d ++ w) = d := by
  obtain ⟨h1, -, -, h4⟩ := hd
  unfold trimEnd
  rw [List.reverse_append, List.dropWhile_append_of_pos (by simpa [Spaces] using hw)]
  cases hr : d.reverse with
  | nil => exact absurd (List.reverse_eq_nil_iff.1 hr) h1
  | cons c t =>
    have hl : d.getLast? = some c := by
      rw [← List.head?_reverse, hr]; rfl
    rw [List.dropWhile_cons_of_neg (by simp [h4 c hl]), ← hr, List.reverse_reverse]

theorem firstEnd_single {d : Str} {c : Char} (h : ∀ b ∈ d, b ≠ c) : FirstEnd [c] (d ++ [c]) := by
  refine ⟨List.suffix_append _ _, ?_⟩
  intro k hk
  by_contra hne
  simp only [List.length_append, List.length_cons, List.length_nil] at hne
  by_cases hk2 : k < d.length
  · rw [List.drop_append_of_le_length (by omega)] at hk
    rw [List.drop_eq_getElem_cons hk2] at hk
    have := (List.cons_prefix_cons.1 hk).1
    exact h _ (List.getElem_mem hk2) this.symm
  · have : (d ++ [c]).drop k = [] := List.drop_eq_nil_of_le (by simp; omega)
    rw [this] at hk
    simp at hk

/-! ## Bodies -/

/-- The tree with more children and contents. -/
def extend : Tree → List Tree → Str → Tree
  | .mk t cs x, cs', x' => .mk t (cs ++ cs') (x ++ x')

theorem extend_addChild (r c : Tree) (cs : List Tree) (x : Str) : extend (addChild r c) cs x = extend r (c :: cs) x := by
  cases r; simp [extend, addChild]

theorem extend_addText (r : Tree) (d : Str) (cs : List Tree) (x : Str) : extend (addText r d) cs x = extend r cs (d ++ x) := by
  cases r; simp [extend, addText]

theorem extend_nil (r : Tree) : extend r [] [] = r := by
  cases r; simp [extend]

theorem readSub_raw {files : Str → Option Str} {w d w' i : Str} (hw : Spaces w) (hd : RawText d) (hw' : Spaces w') (f : Nat)
    (root : Tree) : readSub files (f + 1) root ⟨.start, w ++ d ++ w' ++ '<' :: i⟩ =
      readSub files f (addText root d) ⟨.start, '<' :: i⟩ := by
  have hd' := hd
  obtain ⟨h1, h2, h3, h4⟩ := hd
  match d, h1 with
  | c :: d, _ =>
    have hc := h3 c rfl
    have hlt : c ≠ '<' := h2 c (by simp)
    have hx : openTag files ⟨.start, w ++ c :: d ++ w' ++ '<' :: i⟩ = some (⟨[], [], 5⟩, ⟨.start, c :: d ++ w' ++ '<' :: i⟩) := by
      unfold openTag
      have : expectOpenTag ⟨.start, w ++ c :: d ++ w' ++ '<' :: i⟩ = (false, ⟨.start, c :: (d ++ w' ++ '<' :: i)⟩) := by
        rw [expectOpenTag, if_pos rfl, ← expect_raw hw hc hlt]; simp
      simp only [this]
      simp
    have hu : readUntil ['<'] [] (c :: d ++ w' ++ '<' :: i) = (c :: d ++ w' ++ ['<'], some i) := by
      have hne : ∀ b ∈ c :: d ++ w', b ≠ '<' := by
        intro b hb
        rcases List.mem_append.1 hb with hb | hb
        · exact h2 b hb
        · exact (space_ne (hw' b hb)).1
      have := readUntil_end (firstEnd_single hne) (by simp) i
      rw [← this]; simp
    have htr : trimEnd ((c :: d ++ w' ++ ['<']).dropLast) = c :: d := by
      rw [List.dropLast_concat, trimEnd_raw hd' hw']
    rw [readSub, hx]
    simp only
    rw [if_neg (by decide), if_pos trivial, hu]
    simp only
    rw [if_neg (by simp), htr]

theorem readSub_block {files : Str → Option Str} {w d i : Str} (hw : Gap w) (hd : FirstEnd [']', ']', '>'] (d ++ [']', ']', '>']))
    (f : Nat) (root : Tree) : readSub files (f + 1) root ⟨.start, w ++ '<' :: (cdata ++ d ++ [']', ']', '>'] ++ i)⟩ =
      readSub files f (addText root d) ⟨.start, i⟩ := by
  rw [readSub, show w ++ '<' :: (cdata ++ d ++ [']', ']', '>'] ++ i) = w ++ '<' :: (cdata ++ (d ++ [']', ']', '>'] ++ i)) by simp,
    openTag_block hw]
  simp only
  rw [if_neg (by decide), if_neg (by decide), if_pos trivial, readUntil_end hd (by simp)]
  simp only
  rw [if_neg (by simp)]
  have : (d ++ [']', ']', '>']).take ((d ++ [']', ']', '>']).length - 3) = d := by simp
  rw [this, Option.getD_some]

theorem readSub_stub {files : Str → Option Str} {w n h i : Str} {l : List (Str × Str)} (hw : Gap w) (hh : Head n l h)
    (f : Nat) (root : Tree) : readSub files (f + 1) root ⟨.start, w ++ h ++ '/' :: '>' :: i⟩ =
      readSub files f (addChild root (.mk ⟨n, kept l, 2⟩ [] [])) ⟨.start, paste files (included l) i⟩ := by
  have := openTag_head (files := files) (i := i) hw hh (.inr ⟨rfl, rfl⟩)
  rw [show ['/', '>'] ++ i = '/' :: '>' :: i from rfl] at this
  rw [readSub, this]
  simp only
  rw [if_neg (by decide), if_neg (by decide), if_neg (by decide), if_neg (by decide), if_neg (by decide)]
  simp only [closeTag]
  rw [if_neg (by decide), if_pos trivial]

/-- Reading of the inside of a child and of its closing tag. -/
theorem readSub_child {files : Str → Option Str} {w n h i : Str} {l : List (Str × Str)} (hw : Gap w) (hh : Head n l h)
    (f : Nat) (root : Tree) : readSub files (f + 1) root ⟨.start, w ++ h ++ '>' :: i⟩ =
      match readSub files f (.mk ⟨n, kept l, 1⟩ [] []) ⟨.start, paste files (included l) i⟩ with
        | none => none
        | some (child, false, r) => some (addChild root child, false, r)
        | some (child, true, r) => match closeTag ⟨n, kept l, 1⟩ r with
          | none => none
          | some (false, r) => some (addChild root child, false, r)
          | some (true, r) => readSub files f (addChild root child) r := by
  have := openTag_head (files := files) (i := i) hw hh (.inl ⟨rfl, rfl⟩)
  rw [show ['>'] ++ i = '>' :: i from rfl] at this
  rw [readSub, this]
  simp only
  rw [if_neg (by decide), if_neg (by decide), if_neg (by decide), if_neg (by decide), if_pos trivial]
  rcases readSub files f (.mk ⟨n, kept l, 1⟩ [] []) ⟨.start, paste files (included l) i⟩ with _ | ⟨c, b, r⟩
  · rfl
  · cases b
    · rfl
    · simp only
      rcases closeTag ⟨n, kept l, 1⟩ r with _ | ⟨b, r⟩
      · rfl
      · cases b <;> rfl

theorem readSub_body {files : Str → Option Str} {cs : List Tree} {x i o : Str} (h : Body files cs x i o) :
    ∃ N, ∀ f root, N ≤ f → readSub files f root ⟨.start, i⟩ = some (extend root cs x, true, ⟨.readCloseTagSlash, o⟩) := by
  induction h with
  | @close w o hw =>
    refine ⟨1, fun f root hf => ?_⟩
    match f with
    | f + 1 => rw [readSub, openTag_close hw]; simp [extend_nil]
  | @raw w d w' i o x cs hw hd hw' _ ih =>
    obtain ⟨N, ih⟩ := ih
    refine ⟨N + 1, fun f root hf => ?_⟩
    match f with
    | f + 1 => rw [readSub_raw hw hd hw', ih f _ (by omega), extend_addText]
  | @block w d i o x cs hw hd _ ih =>
    obtain ⟨N, ih⟩ := ih
    refine ⟨N + 1, fun f root hf => ?_⟩
    match f with
    | f + 1 => rw [readSub_block hw hd, ih f _ (by omega), extend_addText]
  | @stub w n h i o x l cs hw hh _ ih =>
    obtain ⟨N, ih⟩ := ih
    refine ⟨N + 1, fun f root hf => ?_⟩
    match f with
    | f + 1 => rw [readSub_stub hw hh, ih f _ (by omega), extend_addChild]
  | @child w n h i i' o x x' l cs cs' hw hh _ _ ih1 ih2 =>
    obtain ⟨N1, ih1⟩ := ih1
    obtain ⟨N2, ih2⟩ := ih2
    refine ⟨max N1 N2 + 1, fun f root hf => ?_⟩
    match f with
    | f + 1 =>
      rw [readSub_child hw hh, ih1 f _ (by omega)]
      simp only
      rw [closeTag_name (head_name hh)]
      simp only
      rw [ih2 f _ (by omega), extend_addChild]
      simp [extend]

theorem closeTag_other {n m s : Str} {l : List (Str × Str)} (hm : TagName m) (hne : m ≠ n) :
    closeTag ⟨n, l, 1⟩ ⟨.readCloseTagSlash, '/' :: (m ++ '>' :: s)⟩ = some (false, ⟨.start, s⟩) := by
  simp only [closeTag, readFinishTag]
  rw [if_neg (by decide), if_neg (by decide), if_neg (by decide)]
  simp only [List.length_cons, closeLoop]
  rw [if_neg (by decide), if_neg (by decide), if_pos trivial]
  obtain ⟨⟨c, t, rfl, hc⟩, h2⟩ := hm
  rw [List.cons_append, closeName, if_neg (alpha_facts (.inl hc)).2.2.2.2.2, if_pos (.inl hc), List.nil_append,
    closeName_go t [c] (by simp) fun c h => ⟨(h2 c (by simp [h])).1, (h2 c (by simp [h])).2.2.2⟩, closeName, if_pos rfl]
  have : decide ([c] ++ t = n) = false := decide_eq_false hne
  rw [this]

theorem skipQuest_length : ∀ (s : Str) (p : Char), (skipQuest p s).length ≤ s.length := by
  intro s
  induction s with
  | nil => intro p; simp [skipQuest]
  | cons c s ih =>
    intro p
    unfold skipQuest
    split
    · simp
    · exact (ih c).trans (by simp)

theorem skipExcl_length : ∀ (s : Str) (p q : Char), (skipExcl p q s).length ≤ s.length := by
  intro s
  induction s with
  | nil => intro p q; simp [skipExcl]
  | cons c s ih =>
    intro p q
    unfold skipExcl
    split
    · simp
    · exact (ih _ _).trans (by simp)

theorem closeLoop_some (tag : Str) : ∀ (f : Nat) (b : Bool) (s : Str), s.length < f → ∃ y, closeLoop tag f b s = some y := by
  intro f
  induction f with
  | zero => intro b s h; omega
  | succ f ih =>
    intro b s h
    cases s with
    | nil => exact ⟨_, rfl⟩
    | cons c t =>
      simp only [List.length_cons] at h
      have q1 := skipQuest_length t '\x00'
      have q2 := skipExcl_length t '\x00' '\x00'
      cases b with
      | false =>
        unfold closeLoop
        split
        · exact ih _ _ (by omega)
        · split
          · exact ih _ _ (by omega)
          · exact ⟨_, rfl⟩
      | true =>
        unfold closeLoop
        split
        · exact ih _ _ (by omega)
        · split
          · exact ih _ _ (by omega)
          · split
            · exact ⟨_, rfl⟩
            · exact ⟨_, rfl⟩

theorem closeTag_some (t : XTag) (r : Rd) : ∃ y, closeTag t r = some y := by
  unfold closeTag
  split
  · exact ⟨_, rfl⟩
  · split
    · exact ⟨_, rfl⟩
    · split
      · exact ⟨_, rfl⟩
      · unfold readFinishTag
        split
        · exact closeLoop_some _ _ _ _ (by omega)
        · exact closeLoop_some _ _ _ _ (by omega)
        · exact ⟨_, rfl⟩

theorem readSub_broken {files : Str → Option Str} {i : Str} (h : Broken files i) :
    ∃ N, ∀ f root, N ≤ f → ∃ t r, readSub files f root ⟨.start, i⟩ = some (t, false, r) := by
  induction h with
  | @here w n h i i' m x' l cs' hw hh hb hm hne =>
    obtain ⟨N, hN⟩ := readSub_body hb
    refine ⟨N + 1, fun f root hf => ?_⟩
    match f with
    | f + 1 =>
      rw [readSub_child hw hh, hN f _ (by omega)]
      simp only
      rw [closeTag_other hm hne]
      exact ⟨_, _, rfl⟩
  | @inside w n h i l hw hh _ ih =>
    obtain ⟨N, ih⟩ := ih
    refine ⟨N + 1, fun f root hf => ?_⟩
    match f with
    | f + 1 =>
      obtain ⟨t, r, e⟩ := ih f (.mk ⟨n, kept l, 1⟩ [] []) (by omega)
      rw [readSub_child hw hh, e]
      exact ⟨_, _, rfl⟩
  | @raw w d w' i hw hd hw' _ ih =>
    obtain ⟨N, ih⟩ := ih
    refine ⟨N + 1, fun f root hf => ?_⟩
    match f with
    | f + 1 => rw [readSub_raw hw hd hw']; exact ih f _ (by omega)
  | @block w d i hw hd _ ih =>
    obtain ⟨N, ih⟩ := ih
    refine ⟨N + 1, fun f root hf => ?_⟩
    match f with
    | f + 1 => rw [readSub_block hw hd]; exact ih f _ (by omega)
  | @stub w n h i l hw hh _ ih =>
    obtain ⟨N, ih⟩ := ih
    refine ⟨N + 1, fun f root hf => ?_⟩
    match f with
    | f + 1 => rw [readSub_stub hw hh]; exact ih f _ (by omega)
  | @child w n h i i' x' l cs' hw hh hb _ ih =>
    obtain ⟨N1, ih1⟩ := readSub_body hb
    obtain ⟨N2, ih2⟩ := ih
    refine ⟨max N1 N2 + 1, fun f root hf => ?_⟩
    match f with
    | f + 1 =>
      rw [readSub_child hw hh, ih1 f _ (by omega)]
      simp only
      rw [closeTag_name (head_name hh)]
      exact ih2 f _ (by omega)

theorem document_reads {files : Str → Option Str} {t : Tree} {i o : Str} (h : Document files t i o) : ReadsAs files i t o := by
  cases h with
  | @mk w n h i _ x l cs hw hh hb =>
    obtain ⟨N, hN⟩ := readSub_body hb
    refine ⟨N, fun f hf => ?_⟩
    have := openTag_head (files := files) (i := i) hw hh (.inl ⟨rfl, rfl⟩)
    rw [show ['>'] ++ i = '>' :: i from rfl] at this
    rw [readXML, this]
    simp only
    rw [hN f _ hf]
    simp only
    rw [closeTag_name (head_name hh)]
    simp [extend]

/-! ## What is written -/

theorem tabs_spaces (n : Nat) : Spaces (tabs n) := by
  intro c hc
  rw [tabs, List.mem_replicate] at hc
  rw [hc.2]; decide

theorem body_spaces {files : Str → Option Str} {cs : List Tree} {x w i o : Str} (hw : Spaces w) (h : Body files cs x i o) :
    Body files cs x (w ++ i) o := by
  cases h with
  | close h => rw [← List.append_assoc]; exact .close (gap_spaces hw h)
  | raw h h1 h2 h3 =>
    rw [← List.append_assoc, ← List.append_assoc, ← List.append_assoc]
    exact .raw (spaces_append hw h) h1 h2 h3
  | block h h1 h2 => rw [← List.append_assoc]; exact .block (gap_spaces hw h) h1 h2
  | stub h h1 h2 =>
    rw [← List.append_assoc, ← List.append_assoc]
    exact .stub (gap_spaces hw h) h1 h2
  | child h h1 h2 h3 =>
    rw [← List.append_assoc, ← List.append_assoc]
    exact .child (gap_spaces hw h) h1 h2 h3

theorem attrs_space {l : List (Str × Str)} {i : Str} {c : Char} (hc : isSpace c = true) (h : Attrs l i) : Attrs l (c :: i) := by
  cases h with
  | nil h => exact .nil (.space hc h)
  | quoted k1 k2 k3 k4 k5 k6 =>
    rw [← List.cons_append, ← List.cons_append, ← List.cons_append]
    exact .quoted (.space hc k1) k2 k3 k4 k5 k6
  | bare k1 k2 k3 k4 k5 k6 k7 =>
    rw [← List.cons_append, ← List.cons_append, ← List.cons_append]
    exact .bare (.space hc k1) k2 k3 k4 k5 k6 k7

theorem attrs_write {off : Nat} : ∀ {l : List (Str × Str)} {a : Str × Str},
    (∀ b ∈ a :: l, AttrName b.1 ∧ b.1 ≠ includeName ∧ Quoted b.2) →
    Attrs (a :: l) (tabs (off + 1) ++ a.1 ++ ['=', '"'] ++ a.2 ++ ['"'] ++ l.flatMap (writeAttr off)) := by
  intro l
  induction l with
  | nil =>
    intro a ha
    obtain ⟨h1, -, h3⟩ := ha a (by simp)
    have := Attrs.quoted (attrGap_spaces (tabs_spaces (off + 1))) h1 spaces_nil spaces_nil h3 (Attrs.nil .nil)
    simpa using this
  | cons b l ih =>
    intro a ha
    obtain ⟨h1, -, h3⟩ := ha a (by simp)
    have hb := ih (a := b) fun b h => ha b (by simp [h])
    have hb' := attrs_space (c := '\n') (by decide) hb
    have := Attrs.quoted (attrGap_spaces (tabs_spaces (off + 1))) h1 spaces_nil spaces_nil h3 hb'
    simpa [writeAttr] using this

theorem head_write {off : Nat} {n : Str} {l : List (Str × Str)} (hn : TagName n)
    (hl : ∀ b ∈ l, AttrName b.1 ∧ b.1 ≠ includeName ∧ Quoted b.2) : Head n l ('<' :: (n ++ l.flatMap (writeAttr off))) := by
  match l with
  | [] => simpa using Head.plain hn
  | a :: l =>
    have := Head.attrs hn (c := '\n') (by decide) (attrs_write (off := off) hl)
    simpa [writeAttr] using this

theorem kept_all {l : List (Str × Str)} (hl : ∀ b ∈ l, AttrName b.1 ∧ b.1 ≠ includeName ∧ Quoted b.2) : kept l = l := by
  rw [kept, List.filter_eq_self]
  intro a ha
  simpa using (hl a ha).2.1

theorem included_none {l : List (Str × Str)} (hl : ∀ b ∈ l, AttrName b.1 ∧ b.1 ≠ includeName ∧ Quoted b.2) : included l = [] := by
  have : l.filter (fun a => decide (a.1 = includeName)) = [] := by
    rw [List.filter_eq_nil_iff]
    intro a ha
    simpa using (hl a ha).2.1
  simp [included, this]

/-- The inside of a tag as it is written. -/
def inside (n : Str) (cs : List Tree) (x : Str) (off : Nat) : Str :=
  '\n' :: (writeAll cs (off + 1) ++ (if x = [] then [] else tabs (off + 1) ++ '<' :: cdata ++ x ++ [']', ']', '>', '\n']) ++
    (tabs off ++ ['<', '/'] ++ n ++ ['>', '\n']))

theorem writeXML_stub {t : XTag} {cs : List Tree} {x : Str} {off : Nat} (h : t.finish = 2) :
    writeXML (.mk t cs x) off = tabs off ++ '<' :: (t.name ++ t.attrs.flatMap (writeAttr off)) ++ ['/', '>', '\n'] := by
  rw [writeXML, if_pos h]

theorem writeXML_open {t : XTag} {cs : List Tree} {x : Str} {off : Nat} (h : t.finish ≠ 2) :
    writeXML (.mk t cs x) off =
      tabs off ++ '<' :: (t.name ++ t.attrs.flatMap (writeAttr off)) ++ '>' :: inside t.name cs x off := by
  rw [writeXML, if_neg h, inside]; simp

theorem writable_mk {t : XTag} {cs : List Tree} {x : Str} (h : Writable (.mk t cs x)) :
    TagName t.name ∧ (∀ a ∈ t.attrs, AttrName a.1 ∧ a.1 ≠ includeName ∧ Quoted a.2) ∧
      ((t.finish = 2 ∧ cs = [] ∧ x = []) ∨ t.finish = 1) ∧
      FirstEnd [']', ']', '>'] (x ++ [']', ']', '>']) ∧ WritableAll cs := by
  rw [Writable] at h; exact h

theorem single_newline : Spaces ['\n'] := by
  intro c hc
  simp only [List.mem_singleton] at hc
  rw [hc]; decide

mutual
theorem body_element (files : Str → Option Str) : ∀ (c : Tree) (off : Nat) (cs : List Tree) (x i o : Str), Writable c →
    Body files cs x i o → Body files (c :: cs) x (writeXML c off ++ i) o
  | .mk t cs' x', off, cs, x, i, o, hw, hb => by
    obtain ⟨h1, h2, h3, h4, h5⟩ := writable_mk hw
    have hh := head_write (off := off) h1 h2
    have hb' : Body files cs x ('\n' :: i) o := body_spaces single_newline hb
    by_cases hf : t.finish = 2
    · obtain ⟨-, rfl, rfl⟩ := h3.resolve_right (by omega)
      rw [writeXML_stub hf]
      have := Body.stub (files := files) (gap_spaces (tabs_spaces off) .nil) hh (i := '\n' :: i) (by
        rw [included_none h2]; simpa [paste] using hb')
      rw [kept_all h2] at this
      obtain ⟨n, l, k⟩ := t
      simp only at hf
      subst hf
      simpa using this
    · have hf1 : t.finish = 1 := h3.resolve_left fun h => hf h.1
      rw [writeXML_open hf]
      have hin := body_inside files t.name cs' x' off h4 h5 i
      have := Body.child (files := files) (gap_spaces (tabs_spaces off) .nil) hh (i := inside t.name cs' x' off ++ i) (by
        rw [included_none h2]; simpa [paste] using hin) hb'
      rw [kept_all h2] at this
      obtain ⟨n, l, k⟩ := t
      simp only at hf1
      subst hf1
      simpa using this
theorem body_inside (files : Str → Option Str) : ∀ (n : Str) (cs : List Tree) (x : Str) (off : Nat),
    FirstEnd [']', ']', '>'] (x ++ [']', ']', '>']) → WritableAll cs → ∀ i,
    Body files cs x (inside n cs x off ++ i) ('/' :: (n ++ '>' :: '\n' :: i))
  | n, cs, x, off, hx, hcs, i => by
    have hclose : Body files [] [] (tabs off ++ '<' :: '/' :: (n ++ '>' :: '\n' :: i)) ('/' :: (n ++ '>' :: '\n' :: i)) :=
      .close (by simpa using gap_spaces (tabs_spaces off) .nil)
    have htext : Body files [] x ((if x = [] then [] else tabs (off + 1) ++ '<' :: cdata ++ x ++ [']', ']', '>', '\n']) ++
        (tabs off ++ '<' :: '/' :: (n ++ '>' :: '\n' :: i))) ('/' :: (n ++ '>' :: '\n' :: i)) := by
      by_cases h : x = []
      · subst h; simpa using hclose
      · rw [if_neg h]
        have := Body.block (files := files) (w := tabs (off + 1)) (by simpa using gap_spaces (tabs_spaces (off + 1)) .nil) hx
          (body_spaces single_newline hclose)
        simpa using this
    have := body_all files cs (off + 1) x _ _ hcs htext
    have := body_spaces single_newline this
    simpa [inside] using this
theorem body_all (files : Str → Option Str) : ∀ (cs : List Tree) (off : Nat) (x i o : Str), WritableAll cs →
    Body files [] x i o → Body files cs x (writeAll cs off ++ i) o
  | [], off, x, i, o, _, hb => by rw [writeAll]; exact hb
  | c :: cs, off, x, i, o, hw, hb => by
    rw [WritableAll] at hw
    rw [writeAll, List.append_assoc]
    exact body_element files c off cs x _ o hw.1 (body_all files cs off x i o hw.2 hb)
end

theorem document_write (files : Str → Option Str) {t : XTag} {cs : List Tree} {x : Str} (h : Writable (.mk t cs x))
    (hf : t.finish = 1) (off : Nat) : Document files (.mk t cs x) (writeXML (.mk t cs x) off) ['\n'] := by
  obtain ⟨h1, h2, h3, h4, h5⟩ := writable_mk h
  rw [writeXML_open (by omega)]
  have hin := body_inside files t.name cs x off h4 h5 []
  have := Document.mk (files := files) (gap_spaces (tabs_spaces off) .nil) (head_write (off := off) h1 h2)
    (i := inside t.name cs x off) (by rw [included_none h2]; simpa [paste] using hin)
  rw [kept_all h2] at this
  obtain ⟨n, l, k⟩ := t
  simp only at hf
  subst hf
  simpa using this

/-! ## Passes -/

variable {files : Str → Option Str}

/-- More passes do not change the result. -/
theorem readSub_more : ∀ {f : Nat} {root : Tree} {r : Rd} {y : Tree × Bool × Rd}, readSub files f root r = some y →
    ∀ {f' : Nat}, f ≤ f' → readSub files f' root r = some y := by
  intro f
  induction f with
  | zero => intro root r y h; cases h
  | succ f ih =>
    intro root r y h f' hf
    match f' with
    | f' + 1 =>
      have hf : f ≤ f' := by omega
      rw [readSub] at h ⊢
      cases ho : openTag files r with
      | none => rw [ho] at h; cases h
      | some p =>
        obtain ⟨t, r⟩ := p
        rw [ho] at h
        simp only at h ⊢
        by_cases h3 : t.finish = 3
        · rw [if_pos h3] at h ⊢; exact h
        rw [if_neg h3] at h ⊢
        by_cases h5 : t.finish = 5
        · rw [if_pos h5] at h ⊢
          by_cases hd : (readUntil ['<'] [] r.rest).1 = []
          · simp only [hd] at h; cases h
          · simp only [if_neg hd] at h ⊢
            exact ih h hf
        rw [if_neg h5] at h ⊢
        by_cases h4 : t.finish = 4
        · rw [if_pos h4] at h ⊢
          by_cases hd : (readUntil [']', ']', '>'] [] r.rest).1.length < 3
          · simp only [if_pos hd] at h; cases h
          · simp only [if_neg hd] at h ⊢
            exact ih h hf
        rw [if_neg h4] at h ⊢
        by_cases h0 : t.finish = 0
        · rw [if_pos h0] at h ⊢; exact h
        rw [if_neg h0] at h ⊢
        by_cases h1 : t.finish = 1
        · rw [if_pos h1] at h ⊢
          cases hs : readSub files f (.mk t [] []) r with
          | none => rw [hs] at h; cases h
          | some q =>
            rw [hs] at h
            rw [ih hs hf]
            obtain ⟨c, b, r⟩ := q
            cases b with
            | false => exact h
            | true =>
              simp only at h ⊢
              cases hc : closeTag t r with
              | none => rw [hc] at h; cases h
              | some q =>
                rw [hc] at h
                obtain ⟨b, r⟩ := q
                cases b with
                | false => exact h
                | true => exact ih h hf
        rw [if_neg h1] at h ⊢
        cases hc : closeTag t r with
        | none => rw [hc] at h; cases h
        | some q =>
          rw [hc] at h
          obtain ⟨b, r⟩ := q
          cases b with
          | false => exact h
          | true => exact ih h hf

theorem readXML_more {f : Nat} {text : Str} {y : Tree × Bool × Rd} (h : readXML files f text = some y) {f' : Nat} (hf : f ≤ f') :
    readXML files f' text = some y := by
  unfold readXML at h ⊢
  cases ho : openTag files ⟨.start, text⟩ with
  | none => rw [ho] at h; cases h
  | some p =>
    rw [ho] at h
    simp only at h ⊢
    cases hs : readSub files f (.mk p.1 [] []) p.2 with
    | none => rw [hs] at h; cases h
    | some q =>
      rw [hs] at h
      rw [readSub_more hs hf]
      exact h

theorem readFails_of {text : Str} {f : Nat} {t : Tree} {r : Rd} (h : readXML files f text = some (t, false, r)) : ReadFails files text :=
  ⟨f, t, r, fun _ hf => readXML_more h hf⟩

end Verif.Xml
