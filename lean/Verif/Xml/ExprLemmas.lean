import Verif.Xml.ExprSpec

/-!
# Lemmas for the interpreter of expressions
-/

namespace Verif.Xml

theorem prio_word {c : Char} (h : c ∉ ['(', ')', '+', '-', '*', '/', '~']) : prio c = -1 := by
  simp only [List.mem_cons, List.not_mem_nil, or_false, not_or] at h
  obtain ⟨h1, h2, h3, h4, h5, h6, h7⟩ := h
  simp [prio, h1, h2, h3, h4, h5, h6, h7]

theorem expandLoop_word {w : Str} (h : ∀ c ∈ w, prio c = -1) : ∀ put rest, expandLoop put (w ++ rest) = expandLoop (put ++ w) rest := by
  induction w with
  | nil => intro put rest; simp
  | cons c w ih =>
    intro put rest
    simp only [List.cons_append, expandLoop]
    rw [if_neg (by simp [h c (by simp)])]
    rw [ih (fun c hc => h c (by simp [hc]))]
    simp

theorem expandLoop_op {c : Char} (hc : prio c ≠ -1) (b : Str) : ∀ (a put : Str),
    expandLoop put (a ++ c :: b) = expandLoop put a ++ [c] :: expand b := by
  intro a
  induction a with
  | nil => intro put; simp [expandLoop, hc, expand]
  | cons d a ih =>
    intro put
    simp only [List.cons_append, expandLoop]
    by_cases hd : prio d ≠ -1
    · rw [if_pos hd, if_pos hd, ih]; simp
    · rw [if_neg hd, if_neg hd, ih]

theorem expand_op {c : Char} (hc : prio c ≠ -1) (a b : Str) : expand (a ++ c :: b) = expand a ++ [c] :: expand b :=
  expandLoop_op hc b a []

theorem expand_word {w : Str} (h : Word w) : expand w = [w] := by
  have := expandLoop_word (w := w) (fun c hc => prio_word (h.2 c hc)) [] []
  simp only [List.append_nil, List.nil_append] at this
  unfold expand
  rw [this]
  simp [expandLoop, h.1]

theorem isOp_word {w : Str} (h : Word w) : isOp w = none := by
  unfold isOp
  split
  · rename_i c
    have := prio_word (h.2 c (by simp))
    simp [this]
  · rfl

theorem popGe_all {p : Int} : ∀ {pend st : List Char} {ret : List Str}, (∀ c ∈ pend, p ≤ prio c) →
    (∀ c, st.head? = some c → prio c < p) → popGe p (pend ++ st) ret = (st, ret ++ pend.map ([·])) := by
  intro pend
  induction pend with
  | nil =>
    intro st ret _ h
    cases st with
    | nil => simp [popGe]
    | cons s st =>
      have := h s rfl
      simp only [List.nil_append, popGe]
      rw [if_neg (by omega)]; simp
  | cons c pend ih =>
    intro st ret h1 h2
    simp only [List.cons_append, popGe]
    rw [if_pos (h1 c (by simp)), ih (fun d hd => h1 d (by simp [hd])) h2]
    simp

variable {K : Type} [Field K]

/-- The tokens `p` push `x`. -/
def Pushes (num : Str → K) (p : List Str) (x : K) : Prop :=
  ∀ k st, runLoop num (p ++ k) st = runLoop num k (x :: st)

theorem pushes_bin {num : Str → K} {p q : List Str} {x y z : K} {c : Char} (hp : Pushes num p x) (hq : Pushes num q y)
    (hc : ∀ k st, runLoop num ([c] :: k) (y :: x :: st) = runLoop num k (z :: st)) : Pushes num (p ++ (q ++ [[c]])) z := by
  intro k st
  rw [List.append_assoc, hp, List.append_assoc, hq, List.singleton_append, hc]

theorem pushes_neg {num : Str → K} {p : List Str} {x : K} (hp : Pushes num p x) : Pushes num (p ++ [['~']]) (-x) := by
  intro k st
  rw [List.append_assoc, hp]
  rfl

/-- The last token of a part. -/
def EndOk (s last : Str) : Prop := isOp last = none ∨ last = [')'] ∧ ∃ s', s = s' ++ [')']

/-- The top of the stack has a lower priority. -/
def Below (p : Int) (st : List Char) : Prop := ∀ c, st.head? = some c → prio c < p

/-- What the loop of `MakePolish` does with the tokens of a part. -/
def Claim (num : Str → K) : Part → Str → K → Prop
  | .factor, s, x => ∃ last, EndOk s last ∧ ∃ p, Pushes num p x ∧
      ∀ prev rest st ret, polishLoop prev (expand s ++ rest) st ret = polishLoop (some last) rest st (ret ++ p)
  | .product, s, x => ∃ last, EndOk s last ∧
      (∃ (pend : List Char) (p : List Str), (∀ c ∈ pend, 9 ≤ prio c) ∧ Pushes num (p ++ pend.map ([·])) x ∧
        ∀ prev rest st ret, Below 9 st →
          polishLoop prev (expand s ++ rest) st ret = polishLoop (some last) rest (pend ++ st) (ret ++ p)) ∧
      ∃ (pend : List Char) (p : List Str), (∀ c ∈ pend, 9 ≤ prio c) ∧ Pushes num (p ++ pend.map ([·])) (-x) ∧
        ∀ prev rest st ret, Below 9 st →
          polishLoop prev (expand s ++ rest) ('~' :: st) ret = polishLoop (some last) rest (pend ++ st) (ret ++ p)
  | .sum, s, x => ∃ last, EndOk s last ∧
      ∃ (pend : List Char) (p : List Str), (∀ c ∈ pend, 8 ≤ prio c) ∧ Pushes num (p ++ pend.map ([·])) x ∧
        ∀ prev rest st ret, afterOp prev = true → Below 8 st →
          polishLoop prev (expand s ++ rest) st ret = polishLoop (some last) rest (pend ++ st) (ret ++ p)

theorem polish_word {t : Str} (h : isOp t = none) (prev : Option Str) (ts : List Str) (st : List Char) (ret : List Str) :
    polishLoop prev (t :: ts) st ret = polishLoop (some t) ts st (ret ++ [t]) := by
  simp only [polishLoop, h]

/-- An operation of two arguments. -/
theorem polish_op {c : Char} (h : isOp [c] = some c) (h1 : c ≠ '(') (h2 : c ≠ ')') (prev : Option Str)
    (hm : ¬ (c = '-' ∧ afterOp prev = true)) {pend st : List Char} (hp : ∀ d ∈ pend, prio c ≤ prio d) (hs : Below (prio c) st)
    (ts : List Str) (ret : List Str) :
    polishLoop prev ([c] :: ts) (pend ++ st) ret = polishLoop (some [c]) ts (c :: st) (ret ++ pend.map ([·])) := by
  simp only [polishLoop, h]
  rw [if_pos h1, if_neg h2, if_neg hm, popGe_all hp hs]

theorem below_mono {p q : Int} {st : List Char} (h : Below p st) (hpq : p ≤ q) : Below q st :=
  fun c hc => lt_of_lt_of_le (h c hc) hpq

theorem below_cons {p : Int} {c : Char} {st : List Char} (h : prio c < p) : Below p (c :: st) := by
  intro d hd
  simp only [List.head?_cons, Option.some.injEq] at hd
  exact hd ▸ h

theorem endOk_append {a b last : Str} (h : EndOk b last) : EndOk (a ++ b) last := by
  rcases h with h | ⟨h, s', rfl⟩
  · exact .inl h
  · exact .inr ⟨h, a ++ s', by simp⟩

theorem endOk_cons {a : Char} {b last : Str} (h : EndOk b last) : EndOk (a :: b) last := endOk_append (a := [a]) h

theorem infix_left {p a b : Str} (h : ¬ p <:+: a ++ b) : ¬ p <:+: a := fun hc => h (hc.trans (List.prefix_append a b).isInfix)
theorem infix_right {p a b : Str} (h : ¬ p <:+: a ++ b) : ¬ p <:+: b := fun hc => h (hc.trans (List.suffix_append a b).isInfix)

theorem claim_times {num : Str → K} {c : Char} (hc : isOp [c] = some c) (hc9 : prio c = 9) {s t : Str} {x y z : K}
    (hz : ∀ k st, runLoop num ([c] :: k) (y :: x :: st) = runLoop num k (z :: st))
    (hz' : ∀ k st, runLoop num ([c] :: k) (y :: (-x) :: st) = runLoop num k ((-z) :: st))
    (hs : Claim num .product s x) (ht : Claim num .factor t y) : Claim num .product (s ++ c :: t) z := by
  have n1 : c ≠ '(' := by rintro rfl; revert hc9; decide
  have n2 : c ≠ ')' := by rintro rfl; revert hc9; decide
  have n3 : c ≠ '-' := by rintro rfl; revert hc9; decide
  obtain ⟨last, hl, ⟨pend, p, g1, g2, g3⟩, pend', p', g1', g2', g3'⟩ := hs
  obtain ⟨lt, hlt, q, q1, q2⟩ := ht
  have ex : expand (s ++ c :: t) = expand s ++ [c] :: expand t := expand_op (by omega) _ _
  refine ⟨lt, endOk_append (endOk_cons hlt), ⟨[c], p ++ pend.map ([·]) ++ q, by simp [hc9], ?_, ?_⟩,
    [c], p' ++ pend'.map ([·]) ++ q, by simp [hc9], ?_, ?_⟩
  · have := pushes_bin g2 q1 hz
    simpa using this
  · intro prev rest st ret hb
    rw [ex, List.append_assoc, g3 prev _ st ret hb, List.cons_append,
      polish_op hc n1 n2 (some last) (by simp [n3]) (by simpa [hc9] using g1) (by simpa [hc9] using hb), q2]
    simp
  · have := pushes_bin g2' q1 hz'
    simpa using this
  · intro prev rest st ret hb
    rw [ex, List.append_assoc, g3' prev _ st ret hb, List.cons_append,
      polish_op hc n1 n2 (some last) (by simp [n3]) (by simpa [hc9] using g1') (by simpa [hc9] using hb), q2]
    simp

theorem claim_plus {num : Str → K} {c : Char} (hc : isOp [c] = some c) (hc8 : prio c = 8) {s t : Str} {x y z : K}
    (hz : ∀ k st, runLoop num ([c] :: k) (y :: x :: st) = runLoop num k (z :: st))
    (hm : c = '-' → ¬ ∃ s', s = s' ++ [')'])
    (hs : Claim num .sum s x) (ht : Claim num .product t y) : Claim num .sum (s ++ c :: t) z := by
  have n1 : c ≠ '(' := by rintro rfl; revert hc8; decide
  have n2 : c ≠ ')' := by rintro rfl; revert hc8; decide
  obtain ⟨last, hl, pend, p, g1, g2, g3⟩ := hs
  obtain ⟨lt, hlt, ⟨pq, q, q0, q1, q2⟩, -⟩ := ht
  have ex : expand (s ++ c :: t) = expand s ++ [c] :: expand t := expand_op (by omega) _ _
  have n3 : ¬ (c = '-' ∧ afterOp (some last) = true) := by
    rintro ⟨rfl, h⟩
    rcases hl with hl | ⟨-, h'⟩
    · simp [afterOp, hl] at h
    · exact hm rfl h'
  refine ⟨lt, endOk_append (endOk_cons hlt), pq ++ [c], p ++ pend.map ([·]) ++ q, ?_, ?_, ?_⟩
  · intro d hd
    rw [List.mem_append] at hd
    rcases hd with hd | hd
    · exact le_trans (by decide) (q0 d hd)
    · simp only [List.mem_singleton] at hd
      rw [hd, hc8]
  · have := pushes_bin g2 q1 hz
    simpa using this
  · intro prev rest st ret ha hb
    rw [ex, List.append_assoc, g3 prev _ st ret ha hb, List.cons_append,
      polish_op hc n1 n2 (some last) n3 (by simpa [hc8] using g1) (by simpa [hc8] using hb),
      q2 _ _ _ _ (below_cons (by rw [hc8]; decide))]
    simp

theorem claim_of {num : Str → K} {val : Str → Option K} (hv : ∀ w x, val w = some x → num w = x) {part : Part} {s : Str}
    {x : K} (h : Means val part s x) : ¬ [')', '-'] <:+: s → Claim num part s x := by
  induction h with
  | @word w x hw hx =>
    intro _
    refine ⟨w, .inl (isOp_word hw), [w], ?_, ?_⟩
    · intro k st
      simp only [List.singleton_append, runLoop, isOp_word hw, hv w x hx]
    · intro prev rest st ret
      rw [expand_word hw, List.singleton_append, polish_word (isOp_word hw)]
  | @bracket s x _ ih =>
    intro hn
    have hn' := infix_left (infix_right (a := ['(']) hn)
    obtain ⟨last, hl, pend, p, g1, g2, g3⟩ := ih hn'
    have ex : expand ('(' :: (s ++ [')'])) = ['('] :: (expand s ++ [[')']]) := by
      have e1 := expand_op (c := '(') (by decide) [] (s ++ [')'])
      have e2 := expand_op (c := ')') (by decide) s []
      rw [List.nil_append] at e1
      rw [e1, e2]
      rfl
    refine ⟨[')'], .inr ⟨rfl, '(' :: s, rfl⟩, p ++ pend.map ([·]), g2, ?_⟩
    intro prev rest st ret
    have h1 : isOp ['('] = some '(' := by decide
    have h2 : isOp [')'] = some ')' := by decide
    rw [ex, List.cons_append]
    have e3 : polishLoop prev (['('] :: (expand s ++ [[')']] ++ rest)) st ret =
        polishLoop (some ['(']) (expand s ++ [[')']] ++ rest) ('(' :: st) ret := by
      simp only [polishLoop, h1]
      simp
    rw [e3, List.append_assoc, g3 _ _ _ _ (by decide) (below_cons (by decide))]
    simp only [List.singleton_append, polishLoop, h2]
    rw [if_pos trivial, if_pos (show (')' ≠ '(') by decide),
      popGe_all (fun c hc => le_trans (by decide) (g1 c hc)) (below_cons (by decide))]
    simp
  | @factor s x _ ih =>
    intro hn
    obtain ⟨last, hl, p, g1, g2⟩ := ih hn
    refine ⟨last, hl, ⟨[], p, by simp, by simpa using g1, ?_⟩, ['~'], p, by simp; decide, ?_, ?_⟩
    · intro prev rest st ret _
      rw [g2]; rfl
    · exact pushes_neg g1
    · intro prev rest st ret _
      rw [g2]; rfl
  | @times s t x y _ _ ih1 ih2 =>
    intro hn
    refine claim_times (by decide) (by decide) ?_ ?_ (ih1 (infix_left hn)) (ih2 (infix_right (a := ['*']) (infix_right hn)))
    · intro k st; rfl
    · intro k st
      rw [← neg_mul]; rfl
  | @over s t x y _ _ hy ih1 ih2 =>
    intro hn
    refine claim_times (by decide) (by decide) ?_ ?_ (ih1 (infix_left hn)) (ih2 (infix_right (a := ['/']) (infix_right hn)))
    · intro k st; rfl
    · intro k st
      rw [← neg_div]; rfl
  | @product s x _ ih =>
    intro hn
    obtain ⟨last, hl, ⟨pend, p, g1, g2, g3⟩, -⟩ := ih hn
    exact ⟨last, hl, pend, p, fun c hc => le_trans (by decide) (g1 c hc), g2,
      fun prev rest st ret _ hb => g3 prev rest st ret (below_mono hb (by decide))⟩
  | @minus s x _ ih =>
    intro hn
    obtain ⟨last, hl, -, pend, p, g1, g2, g3⟩ := ih (infix_right (a := ['-']) hn)
    refine ⟨last, endOk_cons hl, pend, p, fun c hc => le_trans (by decide) (g1 c hc), g2, ?_⟩
    intro prev rest st ret ha hb
    have ex : expand ('-' :: s) = ['-'] :: expand s := expand_op (c := '-') (by decide) [] s
    have h1 : isOp ['-'] = some '-' := by decide
    have e3 : polishLoop prev (['-'] :: (expand s ++ rest)) st ret = polishLoop (some ['-']) (expand s ++ rest) ('~' :: st) ret := by
      have := popGe_all (pend := []) (ret := ret) (by simp) hb
      simp only [List.nil_append, List.map_nil, List.append_nil] at this
      have h8 : prio '-' = 8 := by decide
      simp only [polishLoop, h1]
      rw [if_neg (show ¬ ('-' = ')') by decide), if_pos ⟨trivial, ha⟩, if_pos (show ('-' ≠ '(') by decide), h8, this]
    rw [ex, List.cons_append, e3, g3 _ _ _ _ (below_mono hb (by decide))]
  | @plus s t x y _ _ ih1 ih2 =>
    intro hn
    exact claim_plus (by decide) (by decide) (fun k st => rfl) (fun h => absurd h (by decide)) (ih1 (infix_left hn))
      (ih2 (infix_right (a := ['+']) (infix_right hn)))
  | @sub s t x y _ _ ih1 ih2 =>
    intro hn
    refine claim_plus (by decide) (by decide) (fun k st => rfl) ?_ (ih1 (infix_left hn))
      (ih2 (infix_right (a := ['-']) (infix_right hn)))
    rintro - ⟨s', rfl⟩
    exact hn ⟨s', t, by simp⟩

theorem evaluate_means {num : Str → K} {val : Str → Option K} (hv : ∀ w x, val w = some x → num w = x) {s : Str} {x : K}
    (h : Means val .sum s x) (hn : ¬ [')', '-'] <:+: s) : evaluate num s = (some x, false) := by
  obtain ⟨last, -, pend, p, -, g2, g3⟩ := claim_of hv h hn
  have e := g3 none [] [] [] rfl (by intro c hc; simp at hc)
  simp only [List.append_nil, List.nil_append] at e
  have e2 := g2 [] []
  simp only [List.append_nil] at e2
  unfold evaluate makePolish
  rw [e]
  simp only [polishLoop]
  rw [e2]
  rfl

end Verif.Xml
